import Verif.Spec.Frame
/-! # Specification: which error `Parse` reports, and where -/
namespace Syslog5424.Spec

/-- Every `]` of `a` comes right after a backslash or a double quote. -/
def Closed (a : Bytes) : Prop :=
  ∀ u v, a = u ++ b!"]" ++ v → ∃ w, u = w ++ b!"\\" ∨ u = w ++ b!"\""

/-- `Stray tail a b`: the first `]` of `tail` that comes neither after a backslash nor after a double quote is the one
between `a` and `b`. -/
structure Stray (tail a b : Bytes) : Prop where
  bytes : tail = a ++ b!"]" ++ b
  before : Closed a
  bad : ¬ ∃ w, a = w ++ b!"\\" ∨ a = w ++ b!"\""

/-- What is wrong with the bytes `b` as a message, and the error that says so. The positions count from the first byte
of `b`. -/
inductive Wrong : Bytes → Err → Prop
  /-- there is nothing -/
  | nothing : Wrong [] (.parseError 0 "empty field expected")
  /-- the bytes stop before the space behind the sixth header field -/
  | headerCut {fs : List Bytes} {r : Bytes} : fs.length < 6 → (∀ f ∈ fs, RawField f) → (32 : UInt8) ∉ r →
      headerText fs ++ r ≠ [] → Wrong (headerText fs ++ r) .posNotFound
  /-- one of the six header fields is empty -/
  | headerEmpty {fs : List Bytes} {r : Bytes} : fs.length < 6 → (∀ f ∈ fs, RawField f) →
      Wrong (headerText fs ++ b!" " ++ r) .pos0
  /-- nothing behind the header -/
  | noData {fs : List Bytes} : fs.length = 6 → (∀ f ∈ fs, RawField f) →
      Wrong (headerText fs) (.parseError (headerText fs).length "empty field expected")
  /-- one byte behind the header, which is not `-` -/
  | oneByte {fs : List Bytes} {c : UInt8} : fs.length = 6 → (∀ f ∈ fs, RawField f) → c ≠ 45 →
      Wrong (headerText fs ++ [c]) (.parseError (headerText fs).length "empty field expected")
  /-- several bytes behind the header, and no space in them -/
  | noSpace {fs : List Bytes} {tail : Bytes} : fs.length = 6 → (∀ f ∈ fs, RawField f) → 2 ≤ tail.length →
      (32 : UInt8) ∉ tail → Wrong (headerText fs ++ tail) .posNotFound
  /-- two spaces behind the sixth field, and something more -/
  | spaceFirst {fs : List Bytes} {r : Bytes} : fs.length = 6 → (∀ f ∈ fs, RawField f) → r ≠ [] →
      Wrong (headerText fs ++ b!" " ++ r) .pos0
  /-- one byte between two spaces behind the sixth field, which is not `-` -/
  | notDash {fs : List Bytes} {c : UInt8} {r : Bytes} : fs.length = 6 → (∀ f ∈ fs, RawField f) → c ≠ 45 → c ≠ 32 →
      Wrong (headerText fs ++ [c] ++ b!" " ++ r) (.parseError (headerText fs).length "empty structured data expected")
  /-- structured data: a stray `]` behind an ordinary byte; the position is the one of this byte -/
  | strayAfter {fs : List Bytes} {tail a b : Bytes} {c : UInt8} : fs.length = 6 → (∀ f ∈ fs, RawField f) →
      (∃ p q, tail = p ++ b!" " ++ q ∧ (32 : UInt8) ∉ p ∧ 2 ≤ p.length) → Stray tail (a ++ [c]) b → c ≠ 93 →
      Wrong (headerText fs ++ tail) (.parseError ((headerText fs).length + a.length) "\\\\ or \" expected")
  /-- structured data: a stray `]` at the beginning, or right behind another `]` -/
  | strayFirst {fs : List Bytes} {tail a b : Bytes} : fs.length = 6 → (∀ f ∈ fs, RawField f) →
      (∃ p q, tail = p ++ b!" " ++ q ∧ (32 : UInt8) ∉ p ∧ 2 ≤ p.length) → Stray tail a b →
      (a = [] ∨ ∃ w, a = w ++ b!"]") → Wrong (headerText fs ++ tail) .pos0
  /-- structured data without stray `]`, and the last byte is an escaped `]` -/
  | openEnd {fs : List Bytes} {tail a : Bytes} : fs.length = 6 → (∀ f ∈ fs, RawField f) →
      (∃ p q, tail = p ++ b!" " ++ q ∧ (32 : UInt8) ∉ p ∧ 2 ≤ p.length) → tail = a ++ b!"\\]" → Closed tail →
      Wrong (headerText fs ++ tail) .impossible

end Syslog5424.Spec
