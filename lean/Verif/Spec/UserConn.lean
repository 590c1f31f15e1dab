import Verif.Model.UserConn
import Verif.Spec.Sender
/-! # Specification: a sender with any connector function -/
namespace Syslog5424.Spec
open Sender

/-- A history of a new sender whose connector may return anything. -/
def UHistory (t : Transport) (es : List UEvent) (u : UState) : Prop := urun t uinit es = some u

instance (t : Transport) (es : List UEvent) (u : UState) : Decidable (UHistory t es u) := inferInstanceAs (Decidable (_ = _))

/-- The events other than the strange results of `Connect`. -/
def stdOf : List UEvent → List Event
  | [] => []
  | .std e :: r => e :: stdOf r
  | _ :: r => stdOf r

/-- The errors of `Connect` (with or without a connection) and of `Write`, in order. -/
def uerrors : List UEvent → List SErr
  | [] => []
  | .both e :: r => .connect e :: uerrors r
  | .neither :: r => uerrors r
  | .std e :: r => errors [e] ++ uerrors r

/-- A result of `Connect`. -/
def isConnect : UEvent → Bool
  | .std (.connect _) => true
  | .both _ => true
  | .neither => true
  | .std _ => false

end Syslog5424.Spec
