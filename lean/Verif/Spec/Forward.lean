import Verif.Spec.Relay
/-! # Specification: forwarding whatever was received -/
namespace Syslog5424.Spec

/-- What is asked of a message, read from any bytes and made writable, to be the same for the next one who receives it:
a priority below 300 (those of RFC 5424 are below 192), an offset of its time other than 25 hours (RFC 5424 has none above
23:59), and next to structured data a text that neither begins nor ends with `]`. -/
structure Forwardable (w : Message) : Prop where
  prio : (w.prio : Int) ≤ 299
  offset : w.timestamp.off ≠ 90000 ∧ w.timestamp.off ≠ -90000
  text : w.sd ≠ [] → w.message.head? ≠ some 93 ∧ w.message.getLast? ≠ some 93

/-- A program that gives to `Send`, made writable, the messages that `Receive` returned without an error, in order; and has
done so for the first ones. -/
def ForwardsGood (got : List (Nat × Tok.Delivered)) (ms : List Message) : Prop :=
  Forwards [] (got.filter fun x => x.2.err = none) ms

end Syslog5424.Spec
