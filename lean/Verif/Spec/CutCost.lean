import Verif.Spec.EndToEnd
import Verif.Spec.Logging
/-! # Specification: frames that were cut by a change of connection -/
namespace Syslog5424.Spec

/-- One of the connections `cs` begins inside frame number `a` of `fs`: behind its first byte and before its end. -/
def CutInside (fs : List Bytes) (cs : List Sender.Conn) (a : Nat) : Prop :=
  ∃ j < cs.length, ((fs.take a).flatten).length < (bytesOn (cs.take j)).length ∧ (bytesOn (cs.take j)).length < ((fs.take (a + 1)).flatten).length

/-- A log line without structured data, and without a closing bracket in its names, its message identifier and its text. -/
structure Unbracketed (c : LogCall) : Prop where
  names : ∀ n ∈ c.names, (93 : UInt8) ∉ n
  id : ∀ x, c.id = some x → (93 : UInt8) ∉ x
  text : (93 : UInt8) ∉ c.text
  sd : c.sd = none ∨ c.sd = some []

end Syslog5424.Spec
