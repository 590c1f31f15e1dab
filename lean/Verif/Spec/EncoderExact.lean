import Verif.Spec.Encoder
/-! # Specification: what a struct or a map asks to be encoded, item by item

A value is read as a sequence of items, in the order of the fields, of the keys and of the lists. An item is a parameter
to write or a reason to stop. Only the types of the values are shared with the model. -/
namespace Syslog5424.Spec

/-- What a value contributes. -/
inductive Item where
  /-- the parameter `name="text"`, not yet escaped -/
  | param (name text : Bytes)
  /-- the encoding stops with this error -/
  | fails (e : Err)
  /-- the program crashes -/
  | crashes
  /-- a user supplied `Marshal5424` never returns -/
  | stuck

/-- The items of a value written under `name`; `exported` tells whether it was reached through exported fields only. -/
def valueItems (exported : Bool) (name : Bytes) : (t : GoType) → GoVal t → List Item
  | .scalar _, v => if exported then [.param name v] else [.crashes]
  | .marshaler, v =>
    if v.isNilPtr then []
    else if exported then
      match v.result with
      | .ret (.ok b) => [.param name b]
      | .ret (.error e) => [.fails (.marshaler e)]
      | .panic => [.crashes]
      | .hang => [.stuck]
    else [.crashes]
  | .ptr t, v => match v with | none => [] | some w => valueItems exported name t w
  | .slice t, v =>
    match v with
    | none => []
    | some l => if t = .iface then [.crashes] else l.flatMap (valueItems exported name t)
  | .array _, _ => [.fails .reflectValueError]
  | .unsupported, _ => [.fails .unsupportedType]
  | .iface, _ => [.crashes]

open Classical in
/-- The items of a field. -/
noncomputable def fieldItems (f : GoField) : List Item :=
  if f.tag = b!"-" then []
  else if Missing f.type f.val then (if HasMandatory f.tag then [.crashes] else [])
  else valueItems f.exported (paramName f) f.type f.val

/-- What comes of a sequence of items: the first one that is not a parameter decides; without any, all the parameters
are written, in order, escaped. -/
inductive Encodes (id : Bytes) : List Item → Res Bytes → Prop
  | done (ps : List (Bytes × Bytes)) :
      Encodes id (ps.map fun p => .param p.1 p.2) (.ret (.ok (elementText id (ps.map fun p => (p.1, escaped p.2)))))
  | fails (ps : List (Bytes × Bytes)) (e : Err) (rest : List Item) :
      Encodes id ((ps.map fun p => .param p.1 p.2) ++ .fails e :: rest) (.ret (.error e))
  | crashes (ps : List (Bytes × Bytes)) (rest : List Item) :
      Encodes id ((ps.map fun p => .param p.1 p.2) ++ .crashes :: rest) .panic
  | stuck (ps : List (Bytes × Bytes)) (rest : List Item) :
      Encodes id ((ps.map fun p => .param p.1 p.2) ++ .stuck :: rest) .hang

end Syslog5424.Spec
