import Verif.Model.Receiver
import Verif.Spec.Receive
/-! # Specification: histories of a receiver -/
namespace Syslog5424.Spec
open Recv

/-- The calls of `Read` on connection `i` in a history, in order. -/
def readsOf (i : Nat) (es : List Event) : List Tok.Read :=
  es.filterMap fun e => match e with
    | .read j r => if j = i then some r else none
    | _ => none

/-- The pairs that come from connection `i`, in order. -/
def ofConn (i : Nat) (l : List (Nat × Tok.Delivered)) : List Tok.Delivered :=
  l.filterMap fun x => if x.1 = i then some x.2 else none

end Syslog5424.Spec
