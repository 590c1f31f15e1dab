import Verif.Spec.GramLogged
/-! # Specification: programs that call `End` and exit -/
namespace Syslog5424.Spec
open Sender

/-- An execution of a sender in which, at the moment `n`, a goroutine calls `End`, which returns at the moment `k`. Nothing is said
about what happens later (the process may exit), about fairness, nor about other calls of `End`. A write that fails has accepted nothing. -/
structure EndsAndExits (t : Transport) (ev : Nat → Option FEvent) (st : Nat → FState) (n k : Nat) : Prop where
  exec : FExec t ev st
  whole : ∀ n nb x, ev n = some (.other (.write nb (some x))) → nb = 0
  ends : ∃ g, ev n = some (.call g .endCall) ∧ CallReturns ev g n k

/-- `a` is an interleaving of messages that goroutines give to `Send`: of every goroutine the messages in the order of its calls, all
those whose `Send` has returned before the moment `n`. -/
def ReturnedBefore (ev : Nat → Option FEvent) (n : Nat) (a : List (Nat × Message)) : Prop :=
  ∃ n', ∀ g, returnedBy g (past ev n) <+: ofGoroutine g a ∧ ofGoroutine g a <+: givenBy g (past ev n')

/-- At the moment `n` no call of `Send` is under way. -/
def NoSendUnderWay (ev : Nat → Option FEvent) (n : Nat) : Prop := ∀ g, returnedBy g (past ev n) = givenBy g (past ev n)

end Syslog5424.Spec
