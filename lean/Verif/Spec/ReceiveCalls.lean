import Verif.Model.ReceiveCalls
import Verif.Spec.Fair
import Verif.Spec.Calls
/-! # Specification: calls of `Receive` and `End` by several goroutines -/
namespace Syslog5424.Spec
open Recv

/-- A history of a new receiver, where the calls have a beginning and an end. -/
def RHistory (t : Transport) (lenQueue : Nat) (h : List REvent) (f : RState) : Prop := rrun t lenQueue rinit h = some f

/-- The same history with calls that take place at once. -/
def atOnce : REvent → Option Event
  | .call _ _ => none
  | .take _ w => some w.event
  | .tau _ => some .endCall
  | .ret _ => none
  | .other e => some e

/-- The messages among the results of calls of `Receive` (the others are: the receiver has ended). -/
def messages (rs : List Result) : List (Nat × Tok.Delivered) := rs.filterMap id

/-- What the calls of `Receive` of goroutine `g` have returned, in order. -/
def returnedTo (g : Nat) (f : RState) : List Result := ofGoroutine g f.results

/-- `a` says which goroutine was given each message that left the receiver: it has all of them, in order, each with one
goroutine; the calls of every goroutine have returned what it was given, in the same order, but for the message of a call
that has not returned yet. -/
structure Shares (f : RState) (a : List (Nat × (Nat × Tok.Delivered))) : Prop where
  all : a.map (·.2) = f.s.got
  returned : ∀ g, messages (returnedTo g f) <+: ofGoroutine g a
  pending : ∀ g, (ofGoroutine g a).length ≤ (messages (returnedTo g f)).length + 1
  idle : ∀ g, f.at_ g = .idle → messages (returnedTo g f) = ofGoroutine g a

/-! ## endless executions -/

/-- An endless execution. -/
abbrev RExec (t : Transport) (lenQueue : Nat) (ev : Nat → Option REvent) (st : Nat → RState) : Prop :=
  Exec (rstep t lenQueue) rinit ev st

/-- The events of goroutine `g` that calls `Receive`. -/
def isReceiverOf (g : Nat) : REvent → Bool
  | .call g' .receive => g' == g
  | .take g' _ => g' == g
  | .ret g' => g' == g
  | _ => false

/-- Goroutine `g` calls `Receive` again and again, and does not call `End`. -/
structure Worker (t : Transport) (lenQueue : Nat) (g : Nat) (ev : Nat → Option REvent) (st : Nat → RState) : Prop where
  fair : Fair (rstep t lenQueue) (isReceiverOf g) ev st
  noEnd : ∀ n, ev n ≠ some (.call g .endCall)

/-- A call of goroutine `g` that can return does so. -/
def Returns (t : Transport) (lenQueue : Nat) (g : Nat) (ev : Nat → Option REvent) (st : Nat → RState) : Prop :=
  Fair (rstep t lenQueue) (fun e => match e with | .ret g' => g' == g | _ => false) ev st

end Syslog5424.Spec
