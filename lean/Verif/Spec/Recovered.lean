import Verif.Model.Recovered
import Verif.Spec.Calls
/-! # Specification: calls that panic and are recovered -/
namespace Syslog5424.Spec
open Sender

/-- A history of a new sender whose callers recover from panics. -/
def PHistory (t : Transport) (bad : Bytes → Bool) (h : List FEvent) (f : FState) : Prop := prun t bad finit h = some f

/-- The transports of the package: `Encode` never panics. -/
def never : Bytes → Bool := fun _ => false

/-- The calls that cannot panic: `Send` of a message whose `Marshal5424` does not. -/
def neverPanics : CallOp → Bool
  | .send m => match m.marshal with
    | .panic => false
    | _ => true
  | .endCall => false

/-- `h'` is the history `h` without some calls that had no effect: the other calls of every goroutine are there, in order, with all
accepted messages and all those that cannot panic; if `End` was called one call of it is there; the same calls return; everything else is the same. -/
structure WithoutPanics (h h' : List FEvent) : Prop where
  sub : h'.Sublist h
  accepted (g : Nat) : accepted (called g h') = accepted (called g h)
  calls (g : Nat) : (called g h').Sublist (called g h)
  returns (g : Nat) : returns g h' = returns g h
  others : others h' = others h
  sends (g : Nat) : (called g h').filter neverPanics = (called g h).filter neverPanics
  ends : (∃ g, CallOp.endCall ∈ called g h) → ∃ g, CallOp.endCall ∈ called g h'

end Syslog5424.Spec
