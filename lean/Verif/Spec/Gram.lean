import Verif.Model.Datagram
import Verif.Spec.EndToEnd
/-! # Specification: messages in datagrams -/
namespace Syslog5424.Spec

/-- The byte after a frame, for the transports that have one. -/
def Terminator : Transport → UInt8 → Prop
  | .lfEnded, z => z = 10
  | .zeroEnded, z => z = 0
  | .rfc5425, _ => False

/-- Messages that can be transmitted in a datagram: intact, of at most 500 bytes with the framing and, if the frame has a
terminator, with a text, which does not contain the terminator. Structured data are allowed. -/
structure FitsDatagram (t : Transport) (m : Message) : Prop extends Intact m where
  size : ∀ b, m.marshal = .ret (.ok b) → (t.encode b).length ≤ 500
  ended : ∀ z, Terminator t z → m.message ≠ [] ∧ z ∉ m.message

/-- The bytes of a message with the framing of a transport. -/
def IsFrame (t : Transport) (m : Message) (f : Bytes) : Prop := ∃ b, m.marshal = .ret (.ok b) ∧ f = t.encode b

/-- The datagrams among what the system answers. -/
def datagrams (q : List Net.Recv) : List Bytes := q.filterMap fun r => match r with
  | .datagram d => some d
  | .error => none

/-- The errors among what the system answers. -/
def recvErrors (q : List Net.Recv) : Nat := (q.filter fun r => decide (r = .error)).length

/-- What comes from sender `j`, in order. -/
def fromSender {α : Type} (j : Nat) (l : List (Nat × α)) : List α := l.filterMap fun x => if x.1 = j then some x.2 else none

/-- The datagrams a sender made, over all its connections, when a `Write` is a datagram or fails and accepts nothing. -/
def packets (s : Sender.State) : List Bytes := (s.conns.flatMap (·.writes)).filter fun w => w ≠ []

end Syslog5424.Spec
