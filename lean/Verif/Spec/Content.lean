import Verif.Spec.EncoderExact
import Verif.Spec.Message
import Verif.Model.Meta
/-! # Specification: the content of structured data made from Go values

Only the Go values and `GenericSD` (`genericOfStruct`, `genericOfMap`) are shared with the model. -/
namespace Syslog5424.Spec

/-- `v` is what `GenericSD` makes of a struct or of a map, whose identifier is `id` and whose values are the texts `ps`, by
name: the fields in the order of their declaration, the entries by increasing key. -/
inductive Holds : SD → Bytes → List (Bytes × Bytes) → Prop
  | struct (i : SDIDLight) (fields : List GoField) (ps : List (Bytes × Bytes)) : (∀ f ∈ fields, f.name ≠ []) →
      fields.flatMap fieldItems = ps.map (fun p => .param p.1 p.2) → Holds (genericOfStruct i fields) i.string ps
  | map (i : SDIDLight) (t : GoType) (es sorted : List (Bytes × GoVal t)) (ps : List (Bytes × Bytes)) : t ≠ .iface →
      (es.map (·.1)).Nodup → (∀ e ∈ es, e.1 ≠ []) → sorted.Perm es → sorted.Pairwise (fun a b => a.1 < b.1) →
      (sorted.flatMap fun e => valueItems true e.1 t e.2) = ps.map (fun p => .param p.1 p.2) →
      Holds (genericOfMap i t (some es)) i.string ps

/-- An identifier and names that RFC 5424 can carry, and at least one value. -/
def Named (x : Bytes × List (Bytes × Bytes)) : Prop := IsName x.1 ∧ x.2 ≠ [] ∧ ∀ p ∈ x.2, IsName p.1

/-- The texts in an element that was received: the identifier, the names, and the values without their escapes. -/
def texts (x : Bytes × List (Bytes × Bytes)) : Bytes × List (Bytes × Bytes) := (x.1, x.2.map fun p => (p.1, unescape p.2))

end Syslog5424.Spec
