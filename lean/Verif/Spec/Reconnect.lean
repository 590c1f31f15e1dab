import Verif.Spec.Fair
import Verif.Spec.EndToEnd
import Verif.Spec.Logging
/-! # Specification: a sender that changes its connection, and the network -/
namespace Syslog5424.Spec

/-- What was written to connection `j` of a sender. -/
def connBytes (j : Nat) (s : Sender.State) : Bytes := ((s.conns[j]?).map fun c => c.writes.flatten).getD []

/-- The sender makes a connection number `j` at some moment. -/
def Opened (st : Nat → Sender.State) (j : Nat) : Prop := ∃ n, j < (st n).conns.length

/-- A reliable network, with several connections: what is read on connection `f j` of the receiver is what was written to
connection `j` of the sender; whatever was written is read eventually. -/
structure Links (st : Nat → Sender.State) (f : Nat → Nat) (er : Nat → Option Recv.Event) : Prop where
  faithful : ∀ j, Opened st j → ∀ m, ∃ n, arrived (readsOf (f j) (past er m)) <+: connBytes j (st n)
  live : ∀ j, Opened st j → ∀ n, ∃ m, connBytes j (st n) <+: arrived (readsOf (f j) (past er m))

/-- What `Receive` has returned from the first `k` connections of a sender, in the order of these connections. -/
def receivedOver (f : Nat → Nat) (k : Nat) (got : List (Nat × Tok.Delivered)) : List Tok.Delivered :=
  (List.range k).flatMap fun j => ofConn (f j) got

/-- A program that logs to a `Syslog` (in the state `s0` at the beginning, with the sender number `out`) for ever: at the
moment `n` it has run the lines `lines n`, and these have given to `Send` what the sender has taken. -/
def LoggedBy (s0 : Syslog) (out : Nat) (lines : Nat → List LogCall) (ev : Nat → Option Sender.Event) : Prop :=
  ∀ n, ∃ s1, logAll s0 (lines n) = .ret (s1, (sent (past ev n)).map fun m => (out, m))

end Syslog5424.Spec
