import Verif.Model.Sender
/-! # Specification: what a sender must write -/
namespace Syslog5424.Spec
open Sender

/-- The frames of the messages accepted by `Send` in a history, in the order of the calls. -/
def frames (t : Transport) : List Event → List Bytes
  | [] => []
  | .send m :: r => match m.marshal with
    | .ret (.ok b) => t.encode b :: frames t r
    | _ => frames t r
  | _ :: r => frames t r

/-- Everything written, in order, over all connections. -/
def wire (s : State) : Bytes := (s.conns.map fun c => c.writes.flatten).flatten

/-- A history of a new sender. -/
def History (t : Transport) (es : List Event) (s : State) : Prop := run t init es = some s

instance (t : Transport) (es : List Event) (s : State) : Decidable (History t es s) := inferInstanceAs (Decidable (_ = _))

/-- Bytes made of consecutive whole frames followed by at most the beginning of the next one. -/
def WholeFrames (fs : List Bytes) (d : Bytes) : Prop :=
  ∃ i j p, d = ((fs.drop i).take j).flatten ++ p ∧ (p = [] ∨ ∃ f, fs[i + j]? = some f ∧ p <+: f)

/-- The errors of `Connect` and `Write` in a history, in order (`ENOBUFS` does not count). -/
def errors : List Event → List SErr
  | [] => []
  | .connect (some e) :: r => .connect e :: errors r
  | .write _ (some (.other e)) :: r => .write e :: errors r
  | _ :: r => errors r

/-- The errors received on the error channel, in order. -/
def received : List Event → List SErr
  | [] => []
  | .recvErr e :: r => e :: received r
  | _ :: r => received r

/-- The steps of the goroutine of the sender. -/
def isRunner : Event → Bool
  | .send _ => false
  | .endCall => false
  | .recvErr _ => false
  | _ => true

/-- A connect or a write that fails. -/
def fails : Event → Bool
  | .connect (some _) => true
  | .write _ (some _) => true
  | _ => false

end Syslog5424.Spec
