import Verif.Model.Race
/-! # Specification: data races, after the Go memory model -/
namespace Syslog5424.Spec
open Sender

/-- `i` happens before `j`: the operations of one goroutine are ordered; releasing a mutex happens before taking it later;
closing a channel happens before noticing that it is closed; `sync` is the rest, which the user arranges: it orders operations of the goroutines of the user, and, for operations that a
goroutine makes after `End` returned, the closing of `endCompleted` before them. -/
inductive HappensBefore (os : List Op) (sync : Nat → Nat → Prop) : Nat → Nat → Prop
  | program {i j : Nat} {a b : Op} : i < j → os[i]? = some a → os[j]? = some b → a.goroutine = b.goroutine → HappensBefore os sync i j
  | mutex {i j : Nat} {a b : Op} : i < j → os[i]? = some a → os[j]? = some b → a.releases = true → b.acquires = true →
      HappensBefore os sync i j
  | close {i j : Nat} {a b : Op} : i < j → os[i]? = some a → os[j]? = some b → a.closesEnd = true → b.seesEnd = true →
      HappensBefore os sync i j
  | user {i j : Nat} {a b : Op} : i < j → os[i]? = some a → os[j]? = some b → sync i j → b.goroutine ≠ none →
      (a.goroutine ≠ none ∨ a.completes = true) → HappensBefore os sync i j
  | trans {i j k : Nat} : HappensBefore os sync i j → HappensBefore os sync j k → HappensBefore os sync i k

/-- Two operations conflict: both touch the queue, at least one writes to it. -/
def Conflict (a b : Op) : Prop :=
  (a.writes = true ∧ (b.reads = true ∨ b.writes = true)) ∨ (b.writes = true ∧ (a.reads = true ∨ a.writes = true))

/-- A data race: two conflicting operations of two goroutines, and nothing orders them. -/
def Race (os : List Op) (sync : Nat → Nat → Prop) (i j : Nat) : Prop :=
  i < j ∧ ∃ a b, os[i]? = some a ∧ os[j]? = some b ∧ a.goroutine ≠ b.goroutine ∧ Conflict a b ∧ ¬ HappensBefore os sync i j

end Syslog5424.Spec
