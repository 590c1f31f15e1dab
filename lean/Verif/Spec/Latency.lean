import Verif.Spec.Sender
import Verif.Spec.Calls
/-! # Specification: when a message is written -/
namespace Syslog5424.Spec
open Sender

/-- The sender receives a tick. -/
def isTick : Event → Bool
  | .tick => true
  | _ => false

/-- How many ticks the sender received. -/
def ticks (es : List Event) : Nat := (es.filter isTick).length

/-- How many calls of `Connect` and `Write` failed. -/
def failed (es : List Event) : Nat := (es.filter fails).length

/-- What happened until the time `x` (included), in a history where every event has its time. -/
def until_ (x : Nat) (h : List (Nat × Event)) : List Event := (h.filter fun y => decide (y.1 ≤ x)).map (·.2)

/-- What happened after the time `x`, until the time `y` (included). -/
def within (x y : Nat) (h : List (Nat × Event)) : List Event := (h.filter fun z => decide (x < z.1) && decide (z.1 ≤ y)).map (·.2)

/-- Time does not go back. -/
def Timed (h : List (Nat × Event)) : Prop := h.Pairwise fun x y => x.1 ≤ y.1

/-- From the time `a` until the time `b` the sender receives a tick in every interval of the length `d`. -/
def TicksEvery (d a b : Nat) (h : List (Nat × Event)) : Prop :=
  ∀ x, a ≤ x → x + d ≤ b → ∃ y, x < y ∧ y ≤ x + d ∧ (y, Event.tick) ∈ h

end Syslog5424.Spec
