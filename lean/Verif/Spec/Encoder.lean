import Verif.Spec.SData
import Verif.Model.SDEncoder
import Verif.Spec.Tag
import Verif.Lemmas.Tag
/-! # Specification: what a Go value means as structured data

Only the *types of the values* (`GoType`, `GoVal`, `GoField`) are shared with the model (`Lemmas/Tag` is imported because
it makes `TagName` decidable). -/
namespace Syslog5424.Spec

/-- Types whose values are texts, possibly optional or repeated: scalars, pointers and slices. -/
inductive Plain : GoType → Prop
  | scalar (b : Bool) : Plain (.scalar b)
  | ptr {t : GoType} : Plain t → Plain (.ptr t)
  | slice {t : GoType} : Plain t → Plain (.slice t)

/-- Types that mention neither an interface nor a user supplied marshaler. -/
inductive NoIface : GoType → Prop
  | scalar (b : Bool) : NoIface (.scalar b)
  | unsupported : NoIface .unsupported
  | ptr {t : GoType} : NoIface t → NoIface (.ptr t)
  | slice {t : GoType} : NoIface t → NoIface (.slice t)
  | array {t : GoType} : NoIface t → NoIface (.array t)

/-- The texts of a value: a scalar is one text, a pointer zero or one value, a slice any number. -/
def leaves : (t : GoType) → GoVal t → List Bytes
  | .scalar _, v => [v]
  | .ptr t, v => match v with | none => [] | some w => leaves t w
  | .slice t, v => match v with | none => [] | some l => l.flatMap (leaves t)
  | .marshaler, _ => []
  | .iface, _ => []
  | .array _, _ => []
  | .unsupported, _ => []

/-- A value of a kind the encoder does not know is reachable. -/
def Unknown : (t : GoType) → GoVal t → Prop
  | .scalar _, _ => False
  | .ptr t, v => match v with | none => False | some w => Unknown t w
  | .slice t, v => match v with | none => False | some l => ∃ w ∈ l, Unknown t w
  | .marshaler, _ => False
  | .iface, _ => False
  | .array _, _ => True
  | .unsupported, _ => True

/-- The field holds nothing: an empty string, a nil pointer, an empty slice or array... -/
def Missing : (t : GoType) → GoVal t → Prop
  | .scalar true, v => v = []
  | .scalar false, _ => False
  | .ptr _, v => v = none
  | .slice _, v => v = none ∨ v = some []
  | .array _, v => v = []
  | .iface, v => v = none
  | .marshaler, v => v.isEmpty = true
  | .unsupported, v => v = true

/-- The part of a tag before the first comma. -/
def tagName (tag : Bytes) : Bytes := tag.takeWhile (fun c => decide (c ≠ 44))

/-- The name of the parameter of a field. -/
def paramName (f : GoField) : Bytes :=
  if TagName (tagName f.tag) then tagName f.tag else f.name

/-- The tag has the option `mandatory`. -/
def HasMandatory (tag : Bytes) : Prop :=
  ∃ pre post, tag = pre ++ b!",mandatory" ++ post ∧ (post = [] ∨ post.head? = some 44)

/-- The parameters of a field: none if its tag is `-` or if it is an empty string, else one for each
text of its value, escaped. -/
def fieldParams (f : GoField) : List (Bytes × Bytes) :=
  if f.tag = b!"-" then []
  else match f with
    | ⟨_, _, _, .scalar true, []⟩ => []
    | f => (leaves f.type f.val).map fun v => (paramName f, escaped v)

end Syslog5424.Spec
