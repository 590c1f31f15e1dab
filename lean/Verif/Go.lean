/-!
# Go run-time notions used by the model

Nothing here is specific to syslog5424: byte strings, panics, slices, `strconv`, `bytes`.
-/

namespace Syslog5424

/-- A Go `string` or the visible content of a `[]byte`. -/
abbrev Bytes := List UInt8

/-- `b!"text"` is the list of the UTF-8 bytes of a string literal (expanded when the file is read). -/
syntax:max (name := bytesLit) "b!" str : term
macro_rules
  | `(b! $s:str) => do
    let elems ← s.getString.toUTF8.toList.mapM fun b => `(($(Lean.quote b.toNat) : UInt8))
    `(([$(elems.toArray),*] : Bytes))

/-- Byte constants. -/
abbrev SP   : UInt8 := 32   -- ' '
abbrev LF   : UInt8 := 10   -- '\n'
abbrev NUL  : UInt8 := 0
abbrev DASH : UInt8 := 45   -- '-'
abbrev LBRK : UInt8 := 91   -- '['
abbrev RBRK : UInt8 := 93   -- ']'
abbrev DQ   : UInt8 := 34   -- '"'
abbrev BSL  : UInt8 := 92   -- '\'
abbrev EQC  : UInt8 := 61   -- '='

/-- The outcome of running a piece of Go: it returns, it panics, or it loops for ever. -/
inductive Out (α : Type) where
  | ret (a : α)
  | panic
  | hang
deriving Repr, DecidableEq

namespace Out
variable {α β : Type}

def bind (x : Out α) (f : α → Out β) : Out β :=
  match x with
  | ret a => f a
  | panic => panic
  | hang  => hang

instance : Monad Out where
  pure := ret
  bind := bind

@[simp] theorem ret_bind (a : α) (f : α → Out β) : (ret a >>= f) = f a := rfl
@[simp] theorem pure_eq (a : α) : (pure a : Out α) = ret a := rfl
@[simp] theorem panic_bind (f : α → Out β) : ((panic : Out α) >>= f) = panic := rfl
@[simp] theorem hang_bind (f : α → Out β) : ((hang : Out α) >>= f) = hang := rfl

end Out

/-- Decidable equality, for the tests. -/
instance {ε α : Type} [DecidableEq ε] [DecidableEq α] : DecidableEq (Except ε α)
  | .ok a, .ok b => if h : a = b then isTrue (by rw [h]) else isFalse (fun e => h (by cases e; rfl))
  | .error a, .error b => if h : a = b then isTrue (by rw [h]) else isFalse (fun e => h (by cases e; rfl))
  | .ok _, .error _ => isFalse (fun e => by cases e)
  | .error _, .ok _ => isFalse (fun e => by cases e)

/-- The errors of `errors.go:12-31` (and `ParseError`, `errors.go:8-14`), plus the anonymous `errors.New` values, which
are only distinguished by a tag. The texts are in `Model/ErrorText.lean`, except those of sdata/errors.go:31-52, which are
not modelled. -/
inductive Err where
  | pos0                -- ErrPos0
  | posNotFound         -- ErrPosNotFound
  | impossible          -- ErrImpossible
  | incomplete          -- ErrTransportIncomplete
  | noHeader            -- ErrTransportNoHeader
  | invHeader           -- ErrTransportInvHeader
  | noConnection        -- ErrNoConnection
  | invalidNetwork      -- ErrInvalidNetwork
  | invalidAddress      -- ErrInvalidAddress
  | emptyNetworkAddress -- ErrEmptyNetworkAddress
  | parseError (pos : Nat) (what : String)  -- ParseError (its Buffer is in `Model/ErrorText.lean`)
  | badFormat           -- priority.go "bad format"
  | invalidFacSev       -- priority.go "invalid syslog facility.severity"
  | invalidTimeQuality  -- timequality.ErrInvalidTimeQuality
  | unsupportedType     -- sdata.UnsupportedTypeError
  | invalidValue        -- sdata.InvalidValueError
  | reflectValueError   -- reflect.ValueError raised by IsNil on an array
  | marshaler (e : Err) -- sdata.MarshalerError
  | unknownNetwork      -- dialer.go "unknown network for Dial"
  | invalidUnmarshal    -- sdata.InvalidUnmarshalError
  | emptyAppName        -- syslog.go "syslog.New needs a non empty appname"
  | other (n : Nat)     -- any other error (I/O, user supplied)
deriving Repr, DecidableEq

/-! ## Slices -/

/-- A non-nil `[]byte`: `vis` are the bytes up to `len`, `spare` the bytes of the underlying array
between `len` and `cap`. -/
structure Slice where
  vis   : Bytes
  spare : Bytes
deriving Repr, DecidableEq

namespace Slice

/-- `len(s)` -/
def len (s : Slice) : Nat := s.vis.length
/-- `cap(s)` -/
def cap (s : Slice) : Nat := s.vis.length + s.spare.length
/-- A nil slice behaves as an empty slice of capacity 0 when it is read. -/
def ofNil : Option Slice → Slice
  | some s => s
  | none   => ⟨[], []⟩
/-- A slice with no spare capacity. -/
def exact (b : Bytes) : Slice := ⟨b, []⟩

/-- `s[i:]` : panics unless `0 ≤ i ≤ len(s)`. -/
def from_ (s : Slice) (i : Int) : Out Slice :=
  if 0 ≤ i ∧ i ≤ s.len then .ret ⟨s.vis.drop i.toNat, s.spare⟩ else .panic

/-- `s[i:j]` : panics unless `0 ≤ i ≤ j ≤ cap(s)` (note: `cap`, not `len`). -/
def sub (s : Slice) (i j : Int) : Out Slice :=
  if 0 ≤ i ∧ i ≤ j ∧ j ≤ s.cap then
    .ret ⟨((s.vis ++ s.spare).take j.toNat).drop i.toNat, (s.vis ++ s.spare).drop j.toNat⟩
  else .panic

/-- `s[i]` : panics unless `0 ≤ i < len(s)`. -/
def at_ (s : Slice) (i : Int) : Out UInt8 :=
  if 0 ≤ i then
    match s.vis[i.toNat]? with
    | some b => .ret b
    | none   => .panic
  else .panic

end Slice

/-! ## `bytes`, `strconv` -/

/-- `bytes.IndexByte(s, c)`, also `bytes.Index(s, []byte{c})`; `none` stands for -1. -/
def indexByte (c : UInt8) : Bytes → Option Nat
  | [] => none
  | b :: r => if b = c then some 0 else (indexByte c r).map (· + 1)

def isDigit (b : UInt8) : Bool := 48 ≤ b && b ≤ 57

/-- The value of a string of decimal digits. -/
def decVal (ds : Bytes) : Nat := ds.foldl (fun a d => a * 10 + (d.toNat - 48)) 0

/-- `strconv.Itoa` / `strconv.FormatInt(_, 10)` on a natural number. -/
def natDec (n : Nat) : Bytes :=
  if n < 10 then [UInt8.ofNat (48 + n)] else natDec (n / 10) ++ [UInt8.ofNat (48 + n % 10)]

/-- `strconv.Itoa` / `strconv.AppendInt(_, _, 10)`. -/
def intDec (i : Int) : Bytes :=
  if i < 0 then DASH :: natDec (-i).toNat else natDec i.toNat

/-- `strconv.Atoi` on a 64-bit platform: optional sign, at least one digit, only digits, and the
value must fit in an `int64`; `none` is an error. -/
def atoi (s : Bytes) : Option Int :=
  let neg := s.head? == some 45
  let ds := if s.head? == some 45 || s.head? == some 43 then s.drop 1 else s
  if ds.isEmpty || !ds.all isDigit then none
  else if neg then
    if decVal ds ≤ 2 ^ 63 then some (-(decVal ds : Int)) else none
  else if decVal ds < 2 ^ 63 then some (decVal ds : Int) else none

/-- Two's complement wrap-around of a 64-bit `int`. -/
def wrap64 (i : Int) : Int := i.bmod (2 ^ 64)

end Syslog5424
