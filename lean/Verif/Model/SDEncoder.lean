import Verif.Go
import Verif.Model.Utf8
/-!
# Model of `sdata/structured-data-encoder.go` and of the tag helpers of `sdata/structured-data.go`

The reflective encoder works on a static type and a value of that type: `GoType` lists the kinds the
encoder distinguishes and `GoVal t` the values of a type, so that every pair is well typed.
-/
namespace Syslog5424

/-- Result of code that may return an error: Go panics with an `error` value inside the encoder are
recovered by `encodeState.marshal` (structured-data-encoder.go:40-53) and become an error; panics
with a string or a `runtime.Error` are re-raised and stay panics. -/
abbrev Res (α : Type) := Out (Except Err α)

namespace Res
variable {α β : Type}
def ok (a : α) : Res α := .ret (.ok a)
def err (e : Err) : Res α := .ret (.error e)
def bind (x : Res α) (f : α → Res β) : Res β :=
  match x with
  | .ret (.ok a) => f a
  | .ret (.error e) => .ret (.error e)
  | .panic => .panic
  | .hang => .hang
@[simp] theorem bind_ok (a : α) (f : α → Res β) : Res.bind (.ret (.ok a)) f = f a := rfl
@[simp] theorem bind_err (e : Err) (f : α → Res β) : Res.bind (.ret (.error e) : Res α) f = .ret (.error e) := rfl
@[simp] theorem bind_panic (f : α → Res β) : Res.bind (.panic : Res α) f = .panic := rfl
@[simp] theorem bind_hang (f : α → Res β) : Res.bind (.hang : Res α) f = .hang := rfl
end Res

/-- The escaping loop of `PrefixedWrite` (structured-data-encoder.go:65-70). -/
def escape : Bytes → Bytes
  | [] => []
  | d :: r => if d = DQ ∨ d = BSL ∨ d = RBRK then BSL :: d :: escape r else d :: escape r

/-- `encodeState.PrefixedWrite` (structured-data-encoder.go:55-73): the bytes appended. -/
def prefixedWrite (pfx data : Bytes) : Bytes :=
  if pfx.length = 0 then data
  else SP :: (pfx ++ [EQC, DQ] ++ escape data ++ [DQ])

/-- Static types of non-root values, as far as `newTypeEncoder(t, false)` distinguishes them
(structured-data-encoder.go:106-145). -/
inductive GoType where
  /-- a type that implements `StructuredData` (line 107) -/
  | marshaler
  /-- bool, integer, float (`isString = false`) or string (`true`) kinds (lines 131-134) -/
  | scalar (isString : Bool)
  /-- pointer (line 128) -/
  | ptr (t : GoType)
  /-- interface kind (line 136): `t.Elem()` panics on an interface type -/
  | iface
  /-- slice (line 139) -/
  | slice (t : GoType)
  /-- array (line 139): `IsNil` panics with a `*reflect.ValueError` on arrays -/
  | array (t : GoType)
  /-- struct, map, func, chan, complex... (line 144) -/
  | unsupported
deriving Repr, DecidableEq

/-- What `marshalerEncoder` needs to know of a value implementing `StructuredData`. -/
structure MarshalerVal where
  /-- `v.Kind() == reflect.Ptr && v.IsNil()` -/
  isNilPtr : Bool
  /-- `isEmptyValue(v)` -/
  isEmpty : Bool
  /-- the result of its `Marshal5424` -/
  result : Res Bytes

/-- Values of a type. A scalar is represented by its `fmt.Sprintf("%v", _)` text; an interface by
whether it is non-nil; an unsupported value by `isEmptyValue`. -/
def GoVal : GoType → Type
  | .marshaler   => MarshalerVal
  | .scalar _    => Bytes
  | .ptr t       => Option (GoVal t)
  | .iface       => Option Unit
  | .slice t     => Option (List (GoVal t))
  | .array t     => List (GoVal t)
  | .unsupported => Bool

/-- `isEmptyValue` (structured-data-encoder.go:258-266). -/
def isEmptyValue : (t : GoType) → GoVal t → Bool
  | .marshaler, v => v.isEmpty
  | .scalar true, v => v.length == 0
  | .scalar false, _ => false
  | .ptr _, v => v.isNone
  | .iface, v => v.isNone
  | .slice _, v => match v with | none => true | some l => l.length == 0
  | .array _, v => v.length == 0
  | .unsupported, v => v

/-- Run the encoders of a list of values one after the other, concatenating what they write. -/
def encodeAll {α : Type} (f : α → Res Bytes) : List α → Res Bytes
  | [] => .ret (.ok [])
  | a :: r => Res.bind (f a) fun x => Res.bind (encodeAll f r) fun y => .ret (.ok (x ++ y))

/-- `newTypeEncoder(t, false)` itself (structured-data-encoder.go:106-145): building the encoder of
an interface type panics (`t.Elem()`, line 137). -/
def encoderBuilds : GoType → Bool
  | .iface => false
  | _ => true

/-- `newTypeEncoder(t, false)(e, v, prefix)`: the bytes written. `ro` tells that `v` was obtained
through an unexported struct field, in which case `v.Interface()` panics with a string.
Models structured-data-encoder.go:126-191 (marshalerEncoder structured-data-encoder.go:148-160, encodeurFlemmard
structured-data-encoder.go:163-165, newMaybeEncoder structured-data-encoder.go:169-176, newListEncoder
structured-data-encoder.go:180-191, unsupportedTypeEncoder structured-data-encoder.go:91-93, which calls
`encodeState.error`, structured-data-encoder.go:83-85: a panic with an error, recovered by `marshal`). `valueEncoder` and
`invalidValueEncoder` (structured-data-encoder.go:95-104) are never called. -/
def encodeValue (ro : Bool) : (t : GoType) → GoVal t → Bytes → Res Bytes
  | .marshaler, v, pfx =>
    if v.isNilPtr then .ret (.ok [])
    else if ro then .panic
    else match v.result with
      | .ret (.ok b) => .ret (.ok (prefixedWrite pfx b))
      | .ret (.error e) => .ret (.error (.marshaler e))
      | .panic => .panic
      | .hang => .hang
  | .scalar _, v, pfx => if ro then .panic else .ret (.ok (prefixedWrite pfx v))
  | .ptr t, v, pfx =>
    match v with
    | none => .ret (.ok [])
    | some w => encodeValue ro t w pfx
  | .iface, _, _ => .panic
  | .slice t, v, pfx =>
    match v with
    | none => .ret (.ok [])
    | some l => if encoderBuilds t then encodeAll (fun w => encodeValue ro t w pfx) l else .panic
  | .array _, _, _ => .ret (.error .reflectValueError)
  | .unsupported, _, _ => .ret (.error .unsupportedType)

/-! ### Tags (sdata/structured-data.go) -/

/-- `strings.Split(s, ",")`. -/
def splitComma : Bytes → List Bytes
  | [] => [[]]
  | c :: r =>
    if c = 44 then [] :: splitComma r
    else match splitComma r with
      | [] => [[c]]
      | h :: t => (c :: h) :: t

/-- `parseTag` (structured-data.go:45-50). -/
def parseTag (tag : Bytes) : Bytes × List Bytes :=
  match indexByte 44 tag with
  | some idx => (tag.take idx, splitComma (tag.drop (idx + 1)))
  | none => (tag, [])

/-- `tagOptions.Contains` (structured-data.go:52-63). -/
def tagContains (o : List Bytes) (name : Bytes) : Bool := o.any (· == name)

/-- One rune of `isValidTag` (structured-data.go:69-80). -/
def validTagRune (r : Nat) : Bool :=
  ((b!"!#$%&()*+-./:<=>?@[]^_{|}~ ").map (·.toNat)).contains r || isLetterOrDigit r

/-- The loop of `isValidTag` (structured-data.go:69-80) over the runes; the first argument is the number of bytes of
the last rune that are still to be skipped. -/
def tagLoop : Nat → Bytes → Bool
  | _, [] => true
  | k + 1, _ :: s => tagLoop k s
  | 0, c :: s => validTagRune (decodeRune (c :: s)).1 && tagLoop ((decodeRune (c :: s)).2 - 1) s

/-- `isValidTag` (structured-data.go:65-82). -/
def isValidTag (s : Bytes) : Bool := s ≠ [] && tagLoop 0 s

/-- A struct field: its name, the value of its `sd5424` tag, whether it is exported, and its value. -/
structure GoField where
  name : Bytes
  tag : Bytes
  exported : Bool
  type : GoType
  val : GoVal type

/-- `getName` (structured-data-encoder.go:242-256): the parameter name and the mandatory flag. -/
def getName (f : GoField) : Bytes × Bool :=
  if f.tag = b!"-" then ([], false)
  else
    let (tagName, opts) := parseTag f.tag
    let mandatory := tagContains opts b!"mandatory"
    let name := if isValidTag tagName then tagName else f.name
    (name, mandatory)

/-- One iteration of the field loop of `newStructEncoder` (structured-data-encoder.go:225-237). -/
def encodeField (f : GoField) : Res Bytes :=
  let (name, mandatory) := getName f
  if isEmptyValue f.type f.val || name.length == 0 then
    if mandatory then .panic else .ret (.ok [])
  else if encoderBuilds f.type then encodeValue (!f.exported) f.type f.val name
  else .panic

/-- `HeaderWrite` (structured-data-encoder.go:75-81): `header` is `some id` when the root type
implements `SDIDLight`. -/
def headerWrite (header : Option Bytes) : Bytes := LBRK :: header.getD []

/-- Go string comparison `a <= b` (bytewise lexicographic). -/
def bytesLe : Bytes → Bytes → Bool
  | [], _ => true
  | _ :: _, [] => false
  | a :: r, b :: s => if a < b then true else if a = b then bytesLe r s else false

/-- `sort.Sort(stringValues)` (structured-data-encoder.go:25-28,207-208). Map keys are distinct, so
every sorting algorithm gives the same result; insertion sort is used. -/
def insertKey {α : Type} (x : Bytes × α) : List (Bytes × α) → List (Bytes × α)
  | [] => [x]
  | y :: r => if bytesLe x.1 y.1 then x :: y :: r else y :: insertKey x r

def sortKeys {α : Type} : List (Bytes × α) → List (Bytes × α)
  | [] => []
  | x :: r => insertKey x (sortKeys r)

/-- Root values given to `MarshalSD` or held by a `genericSD`. -/
inductive GoRoot where
  /-- nil interface (what `genericSDID.Found` and `Default` hold): `reflect.Value.Type` panics with
  a `*reflect.ValueError` -/
  | nil
  /-- a value implementing `StructuredData` -/
  | marshaler (v : MarshalerVal)
  /-- struct -/
  | struct (header : Option Bytes) (fields : List GoField)
  /-- map with string keys; `none` is a nil map; the list is in iteration order -/
  | map (header : Option Bytes) (t : GoType) (entries : Option (List (Bytes × GoVal t)))
  /-- every other kind, pointers that do not implement `StructuredData`, and maps with other keys: unsupported -/
  | other
  /-- a value that is not a struct, a map or a pointer, and whose type implements `StructuredData` only through its
  pointer: `newTypeEncoder(reflect.PtrTo(t), true)` (lines 120-122) finds `marshalerEncoder`, which then converts the
  value itself (line 153), a `runtime.Error` -/
  | viaPointer

/-- `encodeState.marshal` (structured-data-encoder.go:40-53) and `reflectValue` (structured-data-encoder.go:87-89) with `newTypeEncoder(_, true)`
(106-124), `newStructEncoder` (216-240), `newMapEncoder` (194-214). -/
def encodeRoot : GoRoot → Res Bytes
  | .nil => .ret (.error .reflectValueError)
  | .marshaler v => encodeValue false .marshaler v []
  | .struct header fields =>
    Res.bind (encodeAll encodeField fields) fun body => .ret (.ok (headerWrite header ++ body ++ [RBRK]))
  | .map header t entries =>
    if encoderBuilds t then
      match entries with
      | none => .ret (.ok [])
      | some es =>
        Res.bind (encodeAll (fun kv => encodeValue false t kv.2 kv.1) (sortKeys es)) fun body =>
          .ret (.ok (headerWrite header ++ body ++ [RBRK]))
    else .panic
  | .other => .ret (.error .unsupportedType)
  | .viaPointer => .panic

/-- `MarshalSD` (structured-data-encoder.go:31-38): an error gives an empty slice. -/
def marshalSD (r : GoRoot) : Out Bytes :=
  match encodeRoot r with
  | .ret (.ok b) => .ret b
  | .ret (.error _) => .ret []
  | .panic => .panic
  | .hang => .hang

end Syslog5424
