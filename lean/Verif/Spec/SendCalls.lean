import Verif.Spec.Calls
import Verif.Spec.Fair
import Verif.Spec.LoggingMany
/-! # Specification: endless executions in which goroutines call `Send` and `End` -/
namespace Syslog5424.Spec
open Sender

/-- An endless execution, where the calls are made of steps. -/
abbrev FExec (t : Transport) (ev : Nat → Option FEvent) (st : Nat → FState) : Prop := Exec (fstep t) finit ev st

/-- The steps of the goroutine of the sender. -/
def isRunnerStep : FEvent → Bool
  | .other e => isRunner e
  | _ => false

/-- The goroutine of the sender keeps running (the scheduler does not forget it, the ticker ticks, the calls of `Connect` and
`Write` return) and is not the one that always comes too late for the lock. -/
abbrev RunnerScheduled (t : Transport) (ev : Nat → Option FEvent) (st : Nat → FState) : Prop :=
  StronglyFair (fstep t) isRunnerStep ev st

/-- The steps of goroutine `g` inside its calls. -/
def isStepOf (g : Nat) : FEvent → Bool
  | .tau g' => g' == g
  | .ret g' => g' == g
  | _ => false

/-- Goroutine `g` keeps running inside its calls, and is not the one that always comes too late for the lock. -/
abbrev Scheduled (t : Transport) (g : Nat) (ev : Nat → Option FEvent) (st : Nat → FState) : Prop :=
  StronglyFair (fstep t) (isStepOf g) ev st

/-- The events that are not calls of the user. -/
def environment (ev : Nat → Option FEvent) (n : Nat) : Option Event :=
  match ev n with
  | some (.other e) => some e
  | _ => none

/-- `Send` is not called any more from some moment on. -/
def SendCallsStop (ev : Nat → Option FEvent) : Prop := ∃ N, ∀ n, N ≤ n → ∀ g m, ev n ≠ some (.call g (.send m))

/-- Event number `k` is the return of the call that goroutine `g` makes at the moment `n`. -/
def CallReturns (ev : Nat → Option FEvent) (g n k : Nat) : Prop :=
  n < k ∧ ev k = some (.ret g) ∧ ∀ j, n < j → j < k → ev j ≠ some (.ret g)

/-- `a` is an interleaving of messages that goroutines give to `Send`: of every goroutine the messages in the order of its calls, all
those that it has given before the moment `n`. -/
def GivenBefore (ev : Nat → Option FEvent) (n : Nat) (a : List (Nat × Message)) : Prop :=
  ∃ n', ∀ g, givenBy g (past ev n) <+: ofGoroutine g a ∧ ofGoroutine g a <+: givenBy g (past ev n')

/-- Goroutines that log: at the moment `n` goroutine `g` has begun the lines `prog g n` (with one `Syslog`, that they share), and these have given to
`Send` what it has given. -/
def BeginLines (s : Syslog) (out : Nat) (prog : Nat → Nat → List LogCall) (ev : Nat → Option FEvent) : Prop :=
  (∀ g n m, n ≤ m → prog g n <+: prog g m) ∧ ∀ g n, logAll s (prog g n) = .ret (s, (givenBy g (past ev n)).map fun m => (out, m))

/-- `a` is an interleaving of lines (of those that pass the threshold `p`) of the goroutines: of every goroutine the lines in its order, all those
that it has begun before the moment `n`. -/
def LinesBefore (p : Int) (prog : Nat → Nat → List LogCall) (n : Nat) (a : List (Nat × LogCall)) : Prop :=
  ∃ n', ∀ g, passing p (prog g n) <+: ofGoroutine g a ∧ ofGoroutine g a <+: passing p (prog g n')

end Syslog5424.Spec
