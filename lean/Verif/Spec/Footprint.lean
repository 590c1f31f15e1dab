import Verif.Model.Footprint
/-! # Specification: using a received message while the receiver goes on -/
namespace Syslog5424.Spec
open Tok

/-- Two messages answer every question in the same way (a panic is an answer). -/
structure SameAnswers (reg : List SDID) (m m' : MsgImm) : Prop where
  string : m.string = m'.string
  priority : m.priority = m'.priority
  timeStamp : m.timeStamp = m'.timeStamp
  hostname : m.hostname = m'.hostname
  appName : m.appName = m'.appName
  procID : m.procID = m'.procID
  msgID : m.msgID = m'.msgID
  structuredData : m.structuredData reg = m'.structuredData reg
  text : m.textOf = m'.textOf
  writable : m.writable reg = m'.writable reg

/-- A decoder of structured data whose result does not depend on the bytes behind the element it is given (it may depend on
how many there are). -/
def Local (i : SDID) : Prop :=
  ∀ x following following', following.length = following'.length → i.found ⟨x, following⟩ = i.found ⟨x, following'⟩

/-- A place that both a call on the delivered message `d` (which reads the places `reads`) and the next `Read` of the
tokenizer touch. The tokenizer never waits for the calls that the user makes on a message that was received: nothing
orders the two. -/
def Overlap (reads : Place → Prop) (s : State) (r : Read) : Prop := ∃ p, reads p ∧ Writes s r p

end Syslog5424.Spec
