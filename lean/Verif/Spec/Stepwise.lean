import Verif.Model.Stepwise
import Verif.Spec.Receiver
/-! # Specification: histories of a receiver, message by message -/
namespace Syslog5424.Spec
open Recv

/-- The calls of `Read` on connection `i` in a history, in order. -/
def sreadsOf (i : Nat) (es : List SEvent) : List Tok.Read :=
  es.filterMap fun e => match e with
    | .std (.read j r) => if j = i then some r else none
    | _ => none

/-- `Parse`, called again and again on what is left, will panic. -/
inductive WillPanic (t : Transport) (eof : Bool) : Slice → Prop
  | now {data : Slice} : parse (some data) (some t) eof = .panic → WillPanic t eof data
  | later {data rest : Slice} {m : MsgImm} {e : Option Err} : parse (some data) (some t) eof = .ret (m, some rest, e) →
      rest.len ≠ 0 → WillPanic t eof rest → WillPanic t eof data

/-- What was read over this connection and is not decoded yet will crash the program. -/
def Doomed (t : Transport) (c : SConn) : Prop :=
  ∃ w, c.work = some w ∧ (w.sending = none ∨ w.data.len ≠ 0) ∧ WillPanic t w.eof w.data

end Syslog5424.Spec
