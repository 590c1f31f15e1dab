import Verif.Model.Alias
/-! # Specification: messages as values -/
namespace Syslog5424.Spec
open Alias

/-- The structured data each message of a program must have: those of the message it was derived from, followed by
those that were added. Message 0 has none. -/
def values (ops : List Op) : List (List SD) :=
  ops.foldl (fun vs o => match vs[o.src]? with | none => vs | some v => vs ++ [v ++ o.data]) [[]]

/-- Where the list of each message was made: the number of the message that was made by adding something; copies have
the same origin. -/
def origins (ops : List Op) : List Nat :=
  ops.foldl (fun gs o => match gs[o.src]? with
    | none => gs
    | some g => gs ++ [if o.data.isEmpty then g else gs.length]) [0]

/-- No list is extended twice, except the empty one: an operation that adds something to message `src` is the only one
that adds something to a list of this origin. -/
def ExtendedOnce (ops : List Op) : Prop :=
  ∀ (i j : Nat) (oi oj : Op), ops[i]? = some oi → ops[j]? = some oj → i < j → oi.data ≠ [] → oj.data ≠ [] →
    ∀ g, (origins ops)[oi.src]? = some g → (origins ops)[oj.src]? = some g → g = 0

end Syslog5424.Spec
