import Verif.Spec.Sender
import Verif.Spec.Receiver
/-! # Specification: endless executions and fairness -/
namespace Syslog5424.Spec

/-- An endless execution of a transition system: at every moment one event happens, or nothing. (A finite history is an
execution in which nothing happens from some moment on.) -/
structure Exec {σ ε : Type} (step : σ → ε → Option σ) (init : σ) (ev : Nat → Option ε) (st : Nat → σ) : Prop where
  start : st 0 = init
  event : ∀ n e, ev n = some e → step (st n) e = some (st (n + 1))
  nothing : ∀ n, ev n = none → st (n + 1) = st n

/-- The events before the moment `n`. -/
def past {ε : Type} (ev : Nat → Option ε) (n : Nat) : List ε := (List.range n).filterMap ev

/-- The events of the kind `p` (the steps of a goroutine) are not put off for ever: again and again one of them happens,
or none is possible. -/
def Fair {σ ε : Type} (step : σ → ε → Option σ) (p : ε → Bool) (ev : Nat → Option ε) (st : Nat → σ) : Prop :=
  ∀ n, ∃ m, n ≤ m ∧ ((∃ e, ev m = some e ∧ p e = true) ∨ ∀ e, p e = true → step (st m) e = none)

/-- The events of the kind `p` happen again and again if they are possible again and again. (Go gives what blocked
goroutines wait for to them in the order in which they began to wait.) -/
def StronglyFair {σ ε : Type} (step : σ → ε → Option σ) (p : ε → Bool) (ev : Nat → Option ε) (st : Nat → σ) : Prop :=
  (∀ n, ∃ m, n ≤ m ∧ ∃ e, p e = true ∧ step (st m) e ≠ none) → ∀ n, ∃ m, n ≤ m ∧ ∃ e, ev m = some e ∧ p e = true

/-! ## the sender -/

section
open Sender

/-- An endless execution of a new sender. -/
abbrev SenderExec (t : Transport) (ev : Nat → Option Event) (st : Nat → State) : Prop := Exec (step t) init ev st

/-- The goroutine of the sender keeps running: the scheduler does not forget it, the ticker ticks, the calls of `Connect`
and `Write` return. -/
abbrev Running (t : Transport) (ev : Nat → Option Event) (st : Nat → State) : Prop := Fair (step t) isRunner ev st

/-- The errors are read: the channel does not stay full. -/
def ErrorsRead (st : Nat → State) : Prop := ∀ n, (st n).errs ≠ [] → ∃ m, n ≤ m ∧ (st m).errs = []

/-- The network recovers: from some moment on no `Connect` and no `Write` fails. -/
def Recovers (ev : Nat → Option Event) : Prop := ∃ N, ∀ n, N ≤ n → ∀ e, ev n = some e → fails e = false

/-- Sends stop: from some moment on `Send` is not called. -/
def SendsStop (ev : Nat → Option Event) : Prop := ∃ N, ∀ n, N ≤ n → ∀ m, ev n ≠ some (.send m)

/-- The select of the goroutine is not biased: if `End` was called and the goroutine comes to its select again and again,
it notices. -/
def NoticesEnd (ev : Nat → Option Event) (st : Nat → State) : Prop :=
  (∀ n, ∃ m, n ≤ m ∧ (st m).pc = .select ∧ (st m).endAsked = true) → ∃ m, ev m = some .seeEnd

end

/-! ## the receiver -/

section
open Recv

/-- An endless execution of a new receiver. -/
abbrev ReceiverExec (t : Transport) (lenQueue : Nat) (ev : Nat → Option Event) (st : Nat → State) : Prop :=
  Exec (step t lenQueue) init ev st

/-- A call of `Receive` that returns a pair. -/
def isReceive : Event → Bool
  | .recv => true
  | .handoff _ => true
  | _ => false

/-- `Receive` keeps being called: again and again it returns a pair, or there is none to return. -/
abbrev Consumed (t : Transport) (lenQueue : Nat) (ev : Nat → Option Event) (st : Nat → State) : Prop :=
  Fair (step t lenQueue) isReceive ev st

/-- The steps of the goroutine of connection `i` between two reads: it sends an error, or a pair. -/
def isWorker (i : Nat) : Event → Bool
  | .sendErr j => j == i
  | .sendMsg j => j == i
  | .handoff j => j == i
  | _ => false

/-- The goroutine of connection `i` keeps running, and is not the one that always comes too late for the room on a
channel. -/
abbrev Served (t : Transport) (lenQueue : Nat) (i : Nat) (ev : Nat → Option Event) (st : Nat → State) : Prop :=
  StronglyFair (step t lenQueue) (isWorker i) ev st

/-- The steps of the goroutine that accepts connections, but for the returns of `Accept`, which the network decides. -/
def isAcceptor : Event → Bool
  | .tau => true
  | _ => false

/-- The goroutine that accepts connections keeps running, and is not the one that always comes too late for the room on
the error channel. -/
abbrev Accepting (t : Transport) (lenQueue : Nat) (ev : Nat → Option Event) (st : Nat → State) : Prop :=
  StronglyFair (step t lenQueue) isAcceptor ev st

/-- The errors are read: the channel does not stay full. -/
def ErrorsDrained (st : Nat → State) : Prop := ∀ n, ∃ m, n ≤ m ∧ (st m).errs < errCap

end

/-! ## a network between them -/

/-- What was written to the first connection of a sender. -/
def firstBytes (s : Sender.State) : Bytes := ((s.conns[0]?).map fun c => c.writes.flatten).getD []

/-- A reliable network: what is read on connection `i` of the receiver is what was written to the first connection of the
sender; whatever was written is read eventually. -/
structure Link (st : Nat → Sender.State) (i : Nat) (er : Nat → Option Recv.Event) : Prop where
  faithful : ∀ m, ∃ n, arrived (readsOf i (past er m)) <+: firstBytes (st n)
  live : ∀ n, ∃ m, firstBytes (st n) <+: arrived (readsOf i (past er m))

end Syslog5424.Spec
