import Verif.Spec.Gram
import Verif.Spec.Fair
import Verif.Spec.Receiver
/-! # Specification: a datagram socket between endless executions -/
namespace Syslog5424.Spec

/-- A reliable datagram socket between the senders `0 … count - 1`, whose states are `st j n`, and connection `i` of a receiver, as seen at each moment `m` of
the receiver: `ds m` are the datagrams that were received, each with the number of its sender, and `answers m` is what the system has answered to the calls of
`ReadFrom`, errors included. -/
structure GramLink (t : Transport) (count : Nat) (st : Nat → Nat → Sender.State) (i : Nat) (er : Nat → Option Recv.Event)
    (ds : Nat → List (Nat × Bytes)) (answers : Nat → List Net.Recv) : Prop where
  /-- the datagrams are those among the answers -/
  answered : ∀ m, datagrams (answers m) = (ds m).map (·.2)
  /-- the calls of `Read` made by the receiver are those of its loop on these answers -/
  loop : ∀ m, ∃ n tok buff, Datagram.gramLoop t n Tok.init [] (answers m) = .ret (tok, buff, [], readsOf i (past er m))
  /-- they come from the senders -/
  senders : ∀ m, ∀ d ∈ ds m, d.1 < count
  /-- what has been received stays received -/
  grows : ∀ m m', m ≤ m' → ds m <+: ds m'
  /-- of each sender, they are its first ones, in order -/
  faithful : ∀ m j, j < count → ∃ n, fromSender j (ds m) <+: packets (st j n)
  /-- and whatever it made is received eventually -/
  live : ∀ j n, j < count → ∃ m, packets (st j n) <+: fromSender j (ds m)

end Syslog5424.Spec
