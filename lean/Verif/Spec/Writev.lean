import Verif.Model.Writev
import Verif.Spec.Sender
import Verif.Spec.Receive
/-! # Specification: senders whose connections take several frames at once -/
namespace Syslog5424.Spec
open Sender

/-- A history of a new sender whose connections may use `writev`. -/
def HistoryV (t : Transport) (es : List VEvent) (s : State) : Prop := runV t init es = some s

/-- The same bytes, the same end. -/
def SameConn (a b : Conn) : Prop := a.writes.flatten = b.writes.flatten ∧ a.closed = b.closed

/-- Two states that cannot be told apart: they may only differ by how the bytes of a connection were grouped into
writes. -/
structure SameState (a b : State) : Prop where
  queue : a.queue = b.queue
  conns : Each SameConn a.conns b.conns
  output : a.output = b.output
  locked : a.locked = b.locked
  errs : a.errs = b.errs
  endAsked : a.endAsked = b.endAsked
  endCompleted : a.endCompleted = b.endCompleted
  errClosed : a.errClosed = b.errClosed
  crashed : a.crashed = b.crashed
  pc : a.pc = b.pc

/-- What a program and its environment see of an event: everything but the progress of the goroutine and the writes that
succeed; of a write that fails, its error. -/
inductive Seen where
  | send (m : Message)
  | endCall
  | recvErr (e : SErr)
  | tick
  | seeEnd
  | connect (r : Option Nat)
  | failed (e : WErr)

/-- The events seen. -/
def seen : List Event → List Seen
  | [] => []
  | .send m :: r => .send m :: seen r
  | .endCall :: r => .endCall :: seen r
  | .recvErr e :: r => .recvErr e :: seen r
  | .tick :: r => .tick :: seen r
  | .seeEnd :: r => .seeEnd :: seen r
  | .connect x :: r => .connect x :: seen r
  | .write _ (some e) :: r => .failed e :: seen r
  | .write _ none :: r => seen r
  | .tau :: r => seen r

/-- The events seen, with `writev`. -/
def seenV : List VEvent → List Seen
  | [] => []
  | .ev e :: r => seen [e] ++ seenV r
  | .writev _ (some e) :: r => .failed e :: seenV r
  | .writev _ none :: r => seenV r

/-- The frames of the messages accepted by `Send`, in order. -/
def framesV (t : Transport) : List VEvent → List Bytes
  | [] => []
  | .ev e :: r => frames t [e] ++ framesV t r
  | .writev _ _ :: r => framesV t r

/-- The messages given to `Send`. -/
def seenSent : List Seen → List Message
  | [] => []
  | .send m :: r => m :: seenSent r
  | _ :: r => seenSent r

/-- The errors of `Connect` and `Write`, `ENOBUFS` excepted. -/
def seenErrors : List Seen → List SErr
  | [] => []
  | .connect (some e) :: r => .connect e :: seenErrors r
  | .failed (.other e) :: r => .write e :: seenErrors r
  | _ :: r => seenErrors r

/-- The errors received on the error channel. -/
def seenReceived : List Seen → List SErr
  | [] => []
  | .recvErr e :: r => e :: seenReceived r
  | _ :: r => seenReceived r

/-- A connect or a write that fails. -/
def seenFails : Seen → Bool
  | .connect (some _) => true
  | .failed _ => true
  | _ => false

end Syslog5424.Spec
