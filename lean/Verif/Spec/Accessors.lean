import Verif.Model.Parse
import Verif.Spec.Text
import Verif.Spec.Decimal
/-! # Specification: what the accessors of a received message return -/
namespace Syslog5424
open Spec

/-- The PRI grammar (C02): `<`, one to three digits, `>1`. -/
def Spec.PriIs (d : Bytes) (v : Int) : Prop :=
  ∃ ds : Bytes, d = b!"<" ++ ds ++ b!">1" ∧ 1 ≤ ds.length ∧ ds.length ≤ 3 ∧ (∀ x ∈ ds, IsDigit x) ∧ v = (value ds : Nat)

/-- What the accessors return for the wire fields. -/
structure ReadsAs (m : MsgImm) (pri ts host app pid mid text : Bytes) : Prop where
  priority : ∃ p, m.priority = .ret p ∧ (PriIs pri p ∨ ((¬ ∃ v, PriIs pri v) ∧ p = (0 : Int)))
  timeStamp : m.timeStamp = .ret ((Time.parse ts).getD Time.zero)
  hostname : ∃ x, m.hostname = .ret x ∧ IsSanitised 255 host x
  appName : ∃ x, m.appName = .ret x ∧ IsSanitised 48 app x
  procID : ∃ x, m.procID = .ret x ∧ IsSanitised 128 pid x
  msgID : ∃ x, m.msgID = .ret x ∧ IsSanitised 32 mid x
  text : m.textOf = .ret text

end Syslog5424
