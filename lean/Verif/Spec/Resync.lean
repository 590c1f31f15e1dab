import Verif.Spec.Frame
/-! # Specification: a stream without closing brackets that begins with something a line receiver takes for a message -/
namespace Syslog5424.Spec

/-- Seven words, the first six not empty, the seventh `-` or of at least two bytes, each followed by one space, and a terminator behind the beginning of
the text: behind the seventh space after `-`, else behind the first byte of the seventh word. -/
def SevenWords (z : UInt8) (b : Bytes) : Prop :=
  ∃ ws w x, ws.length = 6 ∧ (∀ f ∈ ws, RawField f) ∧ b = headerText ws ++ w ++ b!" " ++ x ∧ (32 : UInt8) ∉ w ∧
    (w = b!"-" ∧ z ∈ x ∨ 2 ≤ w.length ∧ z ∈ w.drop 1 ++ b!" " ++ x)

end Syslog5424.Spec
