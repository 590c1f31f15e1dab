import Verif.Spec.SData
import Verif.Spec.Decimal
/-! # Specification: decimal integers and the `timeQuality` element (RFC 5424 section 7.1) -/
namespace Syslog5424.Spec

/-- `s` is an optional sign followed by at least one digit, its value is `v`, and `v` fits in 64 bits. -/
def IntText (s : Bytes) (v : Int) : Prop :=
  ∃ sign ds, s = sign ++ ds ∧ ds ≠ [] ∧ (∀ d ∈ ds, IsDigit d) ∧
    ((sign = b!"" ∨ sign = b!"+") ∧ v = value ds ∧ v < 2 ^ 63 ∨ sign = b!"-" ∧ v = -(value ds : Int) ∧ -(2 ^ 63) ≤ v)

/-- The value of the last parameter called `name`. -/
def lastValue (name : Bytes) (ps : List (Bytes × Bytes)) : Option Bytes :=
  ((ps.filter fun p => p.1 == name).getLast?).map (·.2)

/-- Parameters, each behind one space and a number of further spaces. -/
def spacedParams (l : List (Nat × Bytes × Bytes)) : Bytes :=
  (l.map fun p => List.replicate (p.1 + 1) 32 ++ paramText p.2).flatten

/-- A parameter of the timeQuality element, with a legal value. -/
def TqParam (p : Bytes × Bytes) : Prop :=
  (p.1 = b!"tzKnown" ∨ p.1 = b!"isSynced") ∧ (p.2 = b!"0" ∨ p.2 = b!"1") ∨
  p.1 = b!"syncAccuracy" ∧ ∃ v, IntText p.2 v

/-- What the parameters say: a flag is true if it is (last) said to be `1`, false if it is said to be `0` or not said,
the accuracy is the one that is (last) said. -/
def TqSays (ps : List (Bytes × Bytes)) (tzKnown isSynced : Bool) (accuracy : Option Int) : Prop :=
  (tzKnown = true ↔ lastValue b!"tzKnown" ps = some b!"1") ∧
  (isSynced = true ↔ lastValue b!"isSynced" ps = some b!"1") ∧
  (∀ v, accuracy = some v ↔ ∃ s, lastValue b!"syncAccuracy" ps = some s ∧ IntText s v)

end Syslog5424.Spec
