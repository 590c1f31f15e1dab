import Verif.Model.Parse
import Verif.Model.Utf8
import Verif.Model.Tokens
/-!
# Model of the texts of the errors: `errors.go`, `sdata/tokens.go`, `priority.go`

`fmt.Sprintf` with `%q` on bytes is `strconv.Quote` (package fmt, `fmtQ`; package strconv, `appendQuotedWith` and
`appendEscapedRune`; package unicode/utf8, `DecodeRuneInString` and `AppendRune`), which is modelled here because the
code relies on it to print what a peer sent. The table of the printable runes above U+00FF is a parameter.
-/
namespace Syslog5424

/-! ## package strconv -/

/-- `strconv.IsPrint`; `table` is what it answers above U+00FF. -/
def isPrint (table : Nat → Bool) (r : Nat) : Bool :=
  if r ≤ 0xFF then
    if 0x20 ≤ r ∧ r < 0x7F then true
    else if 0xA1 ≤ r then r ≠ 0xAD
    else false
  else table r

/-- `lowerhex[n]` (package strconv), for `n < 16`. -/
def lowerhex (n : Nat) : UInt8 := if n < 10 then UInt8.ofNat (48 + n) else UInt8.ofNat (87 + n)

/-- `appendEscapedRune` (package strconv), for the quote `"` and a rune that `DecodeRuneInString` found. -/
def escapeRune (table : Nat → Bool) (r : Nat) : Bytes :=
  if r = 34 ∨ r = 92 then [BSL, UInt8.ofNat r]
  else if isPrint table r then encodeRune r
  else if r = 7 then b!"\\a"
  else if r = 8 then b!"\\b"
  else if r = 12 then b!"\\f"
  else if r = 10 then b!"\\n"
  else if r = 13 then b!"\\r"
  else if r = 9 then b!"\\t"
  else if r = 11 then b!"\\v"
  else if r < 32 ∨ r = 127 then b!"\\x" ++ [lowerhex (r / 16), lowerhex (r % 16)]
  else if r < 0x10000 then
    b!"\\u" ++ [lowerhex (r / 4096 % 16), lowerhex (r / 256 % 16), lowerhex (r / 16 % 16), lowerhex (r % 16)]
  else b!"\\U" ++ [lowerhex (r / 268435456 % 16), lowerhex (r / 16777216 % 16), lowerhex (r / 1048576 % 16),
    lowerhex (r / 65536 % 16), lowerhex (r / 4096 % 16), lowerhex (r / 256 % 16), lowerhex (r / 16 % 16),
    lowerhex (r % 16)]

/-- The loop of `appendQuotedWith` (package strconv); the first argument is the number of bytes of the last rune that
are still to be skipped (`s = s[width:]`). -/
def quoteLoop (table : Nat → Bool) : Nat → Bytes → Bytes
  | _, [] => []
  | k + 1, _ :: s => quoteLoop table k s
  | 0, c :: s =>
    if decodeRune (c :: s) = (0xFFFD, 1) then
      b!"\\x" ++ [lowerhex (c.toNat / 16), lowerhex (c.toNat % 16)] ++ quoteLoop table 0 s
    else
      escapeRune table (decodeRune (c :: s)).1 ++ quoteLoop table ((decodeRune (c :: s)).2 - 1) s

/-- `strconv.Quote`, also `%q` of package fmt on a string or on bytes. -/
def quote (table : Nat → Bool) (s : Bytes) : Bytes := b!"\"" ++ quoteLoop table 0 s ++ b!"\""

/-! ## the main package -/

/-- The bytes of a Go string constant. -/
def strBytes (s : String) : Bytes := s.toUTF8.data.toList

/-- `ParseError.Error` (errors.go:33-35): `{%q} %d %s` of `Buffer`, `Pos` and `Message`. -/
def parseErrorText (table : Nat → Bool) (buffer : Bytes) (pos : Nat) (message : String) : Bytes :=
  b!"{" ++ quote table buffer ++ b!"} " ++ natDec pos ++ b!" " ++ strBytes message

/-- The text of the errors of the main package: errors.go:18-35, priority.go:104,109,114,162-180, dialer.go:71,
syslog.go:33. `arg` are the bytes that the error was made of: the `Buffer` of a `ParseError`, the argument `d` of
`Priority.Set` and `Priority.Unmarshal5424`, the network given to `Dial`. The errors of package sdata (whose texts
print Go types, sdata/errors.go:31-52) and those of other packages have no text here. -/
def Err.text (table : Nat → Bool) (arg : Bytes) : Err → Option Bytes
  | .pos0 => some b!"Pos 0 Found"
  | .posNotFound => some b!"Pos Not Found"
  | .impossible => some b!"NO ONE EXPECT THE RETURN OF SPANISH INQUISITION"
  | .incomplete => some b!"Transport : Incomplete Message"
  | .noHeader => some b!"T_RFC5425 Split: no header len"
  | .invHeader => some b!"T_RFC5425 Split: invalid header len"
  | .noConnection => some b!"No Connection established"
  | .invalidNetwork => some b!"Invalid Network"
  | .invalidAddress => some b!"Invalid Address"
  | .emptyNetworkAddress => some b!"Empty Network or Address"
  | .parseError pos what => some (parseErrorText table arg pos what)
  | .badFormat => some (b!"bad format : " ++ arg)
  | .invalidFacSev => some (b!"invalid syslog facility.severity [" ++ arg ++ b!"]")
  | .unknownNetwork => some (b!"unknown network for Dial : " ++ arg)
  | .emptyAppName => some b!"syslog.New needs a non empty appname"
  | _ => none

/-- The variable `data` of `Parse` after message-immutable.go:145-151, which every `ParseError` of `Parse` has as its
`Buffer` (message-immutable.go:174,180,197,229). -/
def parsedData (data : Option Slice) (transport : Option Transport) (atEOF : Bool) : Out Slice :=
  match transport with
  | none => .ret (Slice.ofNil data)
  | some t => do
    let (d, _, _) ← t.prefixStrip data atEOF
    return Slice.ofNil d

/-- `err.Error()` of the error of `Parse` (message-immutable.go:141-245), nil if it returns no error. -/
def parseText (table : Nat → Bool) (data : Option Slice) (transport : Option Transport) (atEOF : Bool) :
    Out (Option Bytes) := do
  let (_, _, e) ← parse data transport atEOF
  let d ← parsedData data transport atEOF
  return e.bind (Err.text table d.vis)

/-- `err.Error()` of `Priority.Unmarshal5424` (priority.go:159-187). -/
def unmarshalText (table : Nat → Bool) (p : Priority) (d : Bytes) : Option Bytes :=
  (Priority.unmarshal p d).2.bind (Err.text table d)

/-- `err.Error()` of `Priority.Set` (priority.go:93-120). -/
def setText (table : Nat → Bool) (p : Priority) (d : Bytes) : Option Bytes :=
  (Priority.set p d).2.bind (Err.text table d)

/-! ## sdata/tokens.go, with its errors -/

/-- The errors of sdata/tokens.go. -/
inductive TokErr where
  | length (data : Bytes)     -- tokens.go:10,36,58,82
  | char (c : UInt8)          -- tokens.go:17,65,93,101
  | space                     -- tokens.go:22
  | nonSpace                  -- tokens.go:41
  | noQuote (data : Bytes)    -- tokens.go:85
  | eof                       -- tokens.go:30,52,76,112
deriving Repr, DecidableEq

/-- The texts of sdata/tokens.go:10-112; `%v` of a byte is its value in decimal. -/
def TokErr.text (table : Nat → Bool) : TokErr → Bytes
  | .length data => b!"invalid length for [" ++ quote table data ++ b!"]"
  | .char c => b!"invalid char " ++ natDec c.toNat
  | .space => b!"unexpected space"
  | .nonSpace => b!"unexpected non space"
  | .noQuote data => b!"no double quote at begin of [" ++ quote table data ++ b!"]"
  | .eof => b!"unexpected EOF"

/-- The loop of `NextHeader` (sdata/tokens.go:15-29), with its errors. -/
def headerLoopE (pre : Bytes) : Bytes → Except TokErr (Bytes × Bytes)
  | [] => .error .eof
  | c :: r =>
    if c < SP ∨ c = EQC ∨ c = 127 ∨ c = RBRK ∨ c = DQ then .error (.char c)
    else if c = SP then
      if pre.length = 0 then .error .space else .ok (pre, c :: r)
    else headerLoopE (pre ++ [c]) r

/-- `NextHeader` (sdata/tokens.go:8-31), with its errors. -/
def nextHeaderE (data : Bytes) : Except TokErr (Bytes × Bytes) :=
  if data.length < 4 then .error (.length data) else headerLoopE [] data

/-- The loop of `NextNonSpace` (sdata/tokens.go:44-52), with its error. -/
def nonSpaceLoopE : Bytes → Except TokErr Bytes
  | [] => .error .eof
  | c :: r => if c = SP then nonSpaceLoopE r else .ok (c :: r)

/-- `NextNonSpace` (sdata/tokens.go:34-53), with its errors. -/
def nextNonSpaceE (data : Bytes) : Except TokErr Bytes :=
  match data with
  | [] => .error (.length [])
  | c :: _ => if c ≠ SP then .error .nonSpace else nonSpaceLoopE data

/-- The loop of `NextSDName` (sdata/tokens.go:63-76), with its errors. -/
def sdNameLoopE (pre : Bytes) : Bytes → Except TokErr (Bytes × Bytes)
  | [] => .error .eof
  | c :: r =>
    if c ≤ SP ∨ c = 127 ∨ c = RBRK ∨ c = DQ then .error (.char c)
    else if c = EQC then .ok (pre, r)
    else sdNameLoopE (pre ++ [c]) r

/-- `NextSDName` (sdata/tokens.go:56-77), with its errors. -/
def nextSDNameE (data : Bytes) : Except TokErr (Bytes × Bytes) :=
  if data.length < 4 then .error (.length data) else sdNameLoopE [] data

/-- The loop of `NextSDValue` (sdata/tokens.go:90-112), with its errors. -/
def sdValueLoopE (pre : Bytes) : Bytes → Except TokErr (Bytes × Bytes)
  | [] => .error .eof
  | c :: r =>
    if c = BSL then
      match r with
      | [] => .error (.char c)
      | d :: r2 => sdValueLoopE (pre ++ [c, d]) r2
    else if c = RBRK then .error (.char c)
    else if c = DQ then .ok (pre, r)
    else sdValueLoopE (pre ++ [c]) r

/-- `NextSDValue` (sdata/tokens.go:80-113), with its errors. -/
def nextSDValueE (data : Bytes) : Except TokErr (Bytes × Bytes) :=
  if data.length < 2 then .error (.length data)
  else
    match data with
    | c :: r => if c ≠ DQ then .error (.noQuote data) else sdValueLoopE [] r
    | [] => .error (.length [])

end Syslog5424
