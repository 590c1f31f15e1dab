import Verif.Go
/-! # Specification: decimal notation -/
namespace Syslog5424.Spec

/-- ASCII digits. -/
def IsDigit (b : UInt8) : Prop := 48 ≤ b.toNat ∧ b.toNat ≤ 57

instance (b : UInt8) : Decidable (IsDigit b) := inferInstanceAs (Decidable (_ ∧ _))

/-- Positional value of a string of digits given with the least significant digit first. -/
def valueRev : Bytes → Nat
  | [] => 0
  | d :: r => (d.toNat - 48) + 10 * valueRev r

/-- Positional value of a string of digits in the usual order. -/
def value (ds : Bytes) : Nat := valueRev ds.reverse

/-- `ds` is the usual decimal notation of `n`: only digits, at least one, no useless leading zero,
and the right value. -/
def IsDecimal (n : Nat) (ds : Bytes) : Prop :=
  ds ≠ [] ∧ (∀ d ∈ ds, IsDigit d) ∧ value ds = n ∧ (ds.head? = some 48 → ds = [48])

end Syslog5424.Spec
