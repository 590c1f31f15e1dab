import Verif.Spec.Frame
import Verif.Spec.Message
import Verif.Spec.Time
import Verif.Spec.Sender
import Verif.Spec.Receiver
/-! # Specification: from a sender to a receiver -/
namespace Syslog5424.Spec

/-- The messages given to `Send` in a history, in order. -/
def sent : List Sender.Event → List Message
  | [] => []
  | .send m :: r => m :: sent r
  | _ :: r => sent r

/-- Messages whose bytes say what they contain: valid header fields and time, structured data elements that are well
formed and have at least one parameter, and, next to structured data, no `]` in the text but after a backslash and before
something else. -/
structure Intact (m : Message) : Prop where
  header : GoodMsg m
  time : m.timestamp.Valid
  sd : ∃ els, MarshalsTo m.sd els
  text : m.sd ≠ [] → FreeText m.message

/-- Messages that can be transmitted with a length before them: intact, with a size below 2^62. -/
structure Transmissible (m : Message) : Prop extends Intact m where
  size : ∀ b, m.marshal = .ret (.ok b) → b.length < 2 ^ 62

/-- Messages that can be transmitted with the terminator `c` after them: valid header fields and time, no structured data,
a text that is not empty and does not contain the terminator. -/
structure TransmissibleLine (c : UInt8) (m : Message) : Prop where
  header : GoodMsg m
  time : m.timestamp.Valid
  sd : m.sd = []
  text : m.message ≠ []
  clean : c ∉ m.message

/-- What `Receive` returned is this message: no error, and every accessor gives the field that was sent (the time to
the microsecond, the structured data as elements with the same encoding, and, where identifiers are registered, as what
they make of the encoding of each element). -/
structure IsReceived (m : Message) (d : Tok.Delivered) : Prop where
  err : d.err = none
  bytes : m.marshal = .ret (.ok d.msg.string)
  priority : d.msg.priority = .ret m.prio
  timeStamp : d.msg.timeStamp = .ret m.timestamp.microseconds
  hostname : d.msg.hostname = .ret m.hostname
  appName : d.msg.appName = .ret m.appname
  procID : d.msg.procID = .ret m.procid
  msgID : d.msg.msgID = .ret m.msgid
  text : d.msg.textOf = .ret m.message
  structuredData : ∃ l, d.msg.structuredData [] = .ret l ∧ l.map SD.marshal = m.sd.map SD.marshal
  registered : ∀ (reg : List SDID) (f : SD → SD), (∀ v ∈ m.sd, ReadAs reg v (f v)) → d.msg.structuredData reg = .ret (m.sd.map f)

/-- Everything written to these connections, in order. -/
def bytesOn (cs : List Sender.Conn) : Bytes := (cs.map fun c => c.writes.flatten).flatten

/-- The connections were changed between two frames, not inside one: what was written before each of them is a number
of whole frames. -/
def CutsBetween (fs : List Bytes) (cs : List Sender.Conn) : Prop :=
  ∀ pre c post, cs = pre ++ c :: post → ∃ n, bytesOn pre = (fs.take n).flatten

end Syslog5424.Spec
