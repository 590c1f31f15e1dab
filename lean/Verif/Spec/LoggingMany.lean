import Verif.Spec.Calls
import Verif.Spec.Logging
/-! # Specification: several goroutines that log -/
namespace Syslog5424.Spec
open Sender

/-- The messages of calls of `Send`. -/
def messagesOf (ops : List CallOp) : List Message :=
  ops.filterMap fun o => match o with
    | .send m => some m
    | .endCall => none

/-- The messages that goroutine `g` has given to `Send`, in order. -/
def givenBy (g : Nat) (h : List FEvent) : List Message := messagesOf (called g h)

/-- Those of them for which `Send` has returned. -/
def returnedBy (g : Nat) (h : List FEvent) : List Message := messagesOf ((called g h).take (returns g h))

/-- A goroutine that runs the log lines `cs` has given these messages to `Send` up to now. -/
def RunsLines (s : Syslog) (out : Nat) (cs : List LogCall) (ms : List Message) : Prop :=
  ∃ all, logAll s cs = .ret (s, all.map fun m => (out, m)) ∧ ms <+: all

/-- `a` is an interleaving of the log lines (those that pass the threshold `p`) that the goroutines have run in the history
`h`: of every goroutine, its lines from the first one on in the order of its program, all those that have returned, and none
that it has not begun. -/
def Interleaving (p : Int) (prog : Nat → List LogCall) (h : List FEvent) (a : List (Nat × LogCall)) : Prop :=
  ∀ g, ofGoroutine g a <+: passing p (prog g) ∧ (returnedBy g h).length ≤ (ofGoroutine g a).length ∧
    (ofGoroutine g a).length ≤ (givenBy g h).length

end Syslog5424.Spec
