import Verif.Props.TestKit
/-! # Specification: timeQuality elements in their shortest form -/
namespace Syslog5424.Spec

/-- The parameters of a timeQuality element as a program that knows the facts writes them: only what is known, in the
order of the RFC, an accuracy that is a positive `int` and without sign or leading zeros. -/
def TqShortest (ps : List (Bytes × Bytes)) : Prop :=
  ps = [(b!"tzKnown", b!"1")] ∨ ps = [(b!"tzKnown", b!"1"), (b!"isSynced", b!"1")] ∨
  ∃ n ds, 0 < n ∧ n < 2 ^ 63 ∧ IsDecimal n ds ∧ ps = [(b!"tzKnown", b!"1"), (b!"isSynced", b!"1"), (b!"syncAccuracy", ds)]

/-- No element is a timeQuality element of the RFC that is written in another way. -/
def NoOtherTq (els : List (Bytes × List (Bytes × Bytes))) : Prop :=
  ∀ x ∈ els, (∃ t, IsTqText (elementText x.1 x.2) t) → TqShortest x.2

end Syslog5424.Spec
