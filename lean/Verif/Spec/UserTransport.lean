import Verif.Model.UserTransport
import Verif.Spec.Receive
import Verif.Spec.Sender
/-! # Specification: what a user's transport must do, and what it gets -/
namespace Syslog5424.Spec

/-- A frame of a stream: its bytes, the payload that the transport finds in it, and the error that the transport reports
with it (none for a frame of `Encode`). -/
structure Packet where
  wire : Bytes
  payload : Bytes
  fault : Option Err

/-- The contract: at the beginning of any buffer that begins with a whole frame, `PrefixStrip` finds the payload, the
bytes behind the frame, and the error of the frame; of the beginning of a frame, it says that more bytes are needed. A frame
has at least one byte. The payload may be a slice of the buffer or not. -/
structure SelfDelimiting (u : UserTransport) (ok : Packet → Prop) : Prop where
  nonempty : ∀ p, ok p → p.wire ≠ []
  whole : ∀ p, ok p → ∀ more spare atEOF, ∃ d, (Slice.ofNil d).vis = p.payload ∧
    u.prefixStrip (some ⟨p.wire ++ more, spare⟩) atEOF = .ret (d, some ⟨more, spare⟩, p.fault)
  part : ∀ p, ok p → ∀ b spare, b ≠ [] → b <+: p.wire → b ≠ p.wire →
    u.prefixStrip (some ⟨b, spare⟩) false = .ret (none, none, none)

/-- What must be delivered for a frame: the message of its payload, or the error that says what is wrong with it; when the
transport reports an error and the payload is not a message, the error of the transport. -/
structure DeliveredFor (p : Packet) (m : MsgImm) (err : Option Err) : Prop where
  message : (p.fault = none ∨ ∃ fs xs o, Frame p.payload fs xs o) → Conveys p.payload m err
  error : ∀ f, p.fault = some f → (¬ ∃ fs xs o, Frame p.payload fs xs o) → err = some f ∧ m.string = []

/-- The frames of the messages accepted by `Send`, as `Encode` of the user makes them. -/
def userFrames (u : UserTransport) : List Sender.Event → List Bytes
  | [] => []
  | .send m :: r => match m.marshal with
    | .ret (.ok b) => u.encode b :: userFrames u r
    | _ => userFrames u r
  | _ :: r => userFrames u r

end Syslog5424.Spec
