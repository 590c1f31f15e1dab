import Verif.Model.Message
import Verif.Spec.Text
import Verif.Spec.SData
/-! # Specification: the messages that can be read back -/
namespace Syslog5424
open Spec

/-- Messages whose header can be read back: a priority that fits in the PRI part and header fields the
setters of the API accept unchanged. -/
structure GoodMsg (m : Message) : Prop where
  prio : 0 ≤ (m.prio : Int) ∧ (m.prio : Int) ≤ 299
  host : ValidField 255 m.hostname
  app : ValidField 48 m.appname
  pid : ValidField 128 m.procid
  mid : ValidField 32 m.msgid

/-- The structured data `sd` marshals to the well formed elements `xs` (identifier, parameters), each with
at least one parameter. -/
def MarshalsTo (sd : List SD) (xs : List (Bytes × List (Bytes × Bytes))) : Prop :=
  sd.map SD.marshal = xs.map (fun x => .ret (.ok (elementText x.1 x.2))) ∧ ∀ x ∈ xs, WellFormed x.1 x.2 ∧ x.2 ≠ []

end Syslog5424
