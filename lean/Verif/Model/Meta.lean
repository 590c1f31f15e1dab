import Verif.Model.SData
/-!
# Model of the rest of `sdata`: `UnmarshalSD`, the identifiers, `GenericSD`, `List.String`

`sdata/structured-data-decoder.go`, the metadata methods of `sdata/sd-generic.go`, `sdata/sd-unknown.go` and
`sdata/timequality/tq.go`, and the wrappers of `sdata/list.go` and `sdata-helper.go`.
-/
namespace Syslog5424

/-- What `UnmarshalSD` can be given (`v interface{}`), with the value a pointer points to. -/
inductive Target (α : Type) where
  /-- the nil interface -/
  | nil
  /-- a value that is not a pointer -/
  | value (v : α)
  /-- a nil pointer -/
  | nilPtr
  /-- a pointer to `v` -/
  | ptr (v : α)
deriving Repr, DecidableEq

/-- `decodeState.unmarshal` (structured-data-decoder.go:25-36): nothing is done. The result is the error and the target
after the call. -/
def decodeUnmarshal {α : Type} (v : Target α) : Option Err × Target α := (none, v)

/-- `UnmarshalSD` (structured-data-decoder.go:14-23). `reflect.ValueOf(nil).Kind()` is `Invalid`, not `Ptr`. -/
def unmarshalSD {α : Type} (_data : Bytes) (v : Target α) : Option Err × Target α :=
  match v with
  | .nil => (some .invalidUnmarshal, v)
  | .value _ => (some .invalidUnmarshal, v)
  | .nilPtr => (some .invalidUnmarshal, v)
  | .ptr _ => decodeUnmarshal v

/-- An `SDIDLight` (structured-data.go:14-18) given to `GenericSD`: what its `String`, `IsIANA` and `GetPEN` return. -/
structure SDIDLight where
  string : Bytes
  isIANA : Bool
  pen : Nat
deriving Repr, DecidableEq

/-- `GenericSD` (sd-generic.go:15-17, sdata-helper.go:8-10) of a struct: the type implements `SDIDLight`, so the
header is its `String()` (structured-data-encoder.go:78-80). -/
def genericOfStruct (i : SDIDLight) (fields : List GoField) : SD := .generic i.string (.struct (some i.string) fields)

/-- `GenericSD` of a map with string keys. -/
def genericOfMap (i : SDIDLight) (t : GoType) (entries : Option (List (Bytes × GoVal t))) : SD :=
  .generic i.string (.map (some i.string) t entries)

/-- `GenericSD` of a pointer (to anything): not a struct, not a map (structured-data-encoder.go:119-122). -/
def genericOfPointer (i : SDIDLight) : SD := .generic i.string .other

/-- `genericSDID.Default` (sd-generic.go:31-33). -/
def genericDefault (header : Bytes) : SD := .generic header .nil

/-- `SDID().MarshalText()` of a structured data (sd-unknown.go:41-43,85-87, tq.go:56-58,131-133, sd-generic.go:43-45,66-68);
`none` for an implementation outside the package. -/
def SD.idText : SD → Option Bytes
  | .unknown _ _ => some b!"unknown@32473"
  | .tq _ => some b!"timeQuality"
  | .generic id _ => some id
  | .custom _ => none

/-- `SDID().String()` (sd-unknown.go:17-19, tq.go:32-34, sd-generic.go:19-21). -/
def SD.idString : SD → Option Bytes
  | .unknown _ _ => some b!"unknown Structured Data"
  | .tq _ => some b!"TimeQuality"
  | .generic id _ => some id
  | .custom _ => none

/-- `SDID().IsIANA()` and `SDID().GetPEN()` of the two identifiers the package defines (sd-unknown.go:33-39,
tq.go:48-54); those of a generic one are the user's (sd-generic.go:35-41). -/
def SD.registered : SD → Option (Bool × Nat)
  | .unknown _ _ => some (false, 32473)
  | .tq _ => some (true, 0)
  | .generic _ _ => none
  | .custom _ => none

/-- `List.String` (sdata/list.go:109-113): errors give the empty string. -/
def sdListString (l : List SD) : Out Bytes :=
  match sdListMarshal l with
  | .ret (.ok b) => .ret b
  | .ret (.error _) => .ret []
  | .panic => .panic
  | .hang => .hang

end Syslog5424
