import Verif.Spec.SData
/-! # Specification: the shape of the frames the parser accepts -/
namespace Syslog5424.Spec

/-- A header field as the parser sees it: not empty, without space. -/
def RawField (f : Bytes) : Prop := f ≠ [] ∧ (32 : UInt8) ∉ f

instance (f : Bytes) : Decidable (RawField f) := inferInstanceAs (Decidable (_ ∧ _))

/-- The six header fields, each followed by one space. -/
def headerText (fs : List Bytes) : Bytes := fs.flatMap fun f => f ++ b!" "

/-- What the parser takes for one structured data element: it ends with `"]`, and every other `]` in it
comes right after a backslash. -/
inductive Element : Bytes → Prop
  | last {p : Bytes} : (93 : UInt8) ∉ p → Element (p ++ b!"\"]")
  | esc {p r : Bytes} : (93 : UInt8) ∉ p → Element r → Element (p ++ b!"\\]" ++ r)

/-- Bytes that do not look like (the end of) an element: every `]` comes right after a backslash, and the
last byte is not such a `]`. -/
inductive Quiet : Bytes → Prop
  | last {p : Bytes} : p ≠ [] → (93 : UInt8) ∉ p → Quiet p
  | esc {p r : Bytes} : (93 : UInt8) ∉ p → Quiet r → Quiet (p ++ b!"\\]" ++ r)

/-- A sequence of elements followed by nothing, or by something quiet. -/
inductive Items : Bytes → List Bytes → Option Bytes → Prop
  | stop {x : Bytes} : Element x → Items x [x] none
  | quiet {q : Bytes} : Quiet q → Items q [] (some q)
  | more {x r : Bytes} {xs : List Bytes} {o : Option Bytes} : Element x → Items r xs o → Items (x ++ r) (x :: xs) o

/-- The frames the parser accepts: the header fields, the structured data elements, and what follows them
(if anything follows them). -/
inductive Frame : Bytes → List Bytes → List Bytes → Option Bytes → Prop
  /-- no structured data and no text: `... -` -/
  | dash {fs : List Bytes} : fs.length = 6 → (∀ f ∈ fs, RawField f) → Frame (headerText fs ++ b!"-") fs [] none
  /-- no structured data and a text: `... - text` -/
  | dashText {fs : List Bytes} {t : Bytes} : fs.length = 6 → (∀ f ∈ fs, RawField f) →
      Frame (headerText fs ++ b!"- " ++ t) fs [] (some (b!" " ++ t))
  /-- structured data: `... [...][...]` or `... [...][...]?text`, with a space somewhere after the
  second byte -/
  | sd {fs xs : List Bytes} {o : Option Bytes} {tail : Bytes} : fs.length = 6 → (∀ f ∈ fs, RawField f) →
      Items tail xs o → (∃ p q, tail = p ++ b!" " ++ q ∧ (32 : UInt8) ∉ p ∧ 2 ≤ p.length) →
      Frame (headerText fs ++ tail) fs xs o

/-- A text that is not mistaken for structured data when it comes after some: every `]` in it comes right after a backslash
and is not the last byte. -/
def FreeText (t : Bytes) : Prop := ∀ a b, t = a ++ 93 :: b → a.getLast? = some 92 ∧ b ≠ []

end Syslog5424.Spec
