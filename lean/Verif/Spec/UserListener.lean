import Verif.Model.UserListener
import Verif.Spec.Receiver
/-! # Specification: a receiver with any listener -/
namespace Syslog5424.Spec
open Recv

/-- The events of a history other than those peculiar to listeners of the user. -/
def standardOf (es : List UEvent) : List Event := es.filterMap fun e => match e with
  | .std e => some e
  | _ => none

end Syslog5424.Spec
