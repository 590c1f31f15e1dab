import Verif.Model.Net
import Verif.Model.Receiver
/-!
# Model of the datagram listener under concurrent calls, and of a `Receiver` on a datagram listener

`Gram.accept` and `Gram.close` (Verif/Model/Net.lean) are the functions run by one goroutine without interruption. Here
the calls of `Accept` are goroutines that interleave: the flag `accepted` is read and written without a lock.
-/
namespace Syslog5424.Datagram

/-- Where a call of `unixgramReceiver.Accept` is (listener-unixdgram.go:69-83): before the test of `accepted` (line 70),
before the assignment (line 75), before the receive on `end` (line 71), returned with a connection (line 82) or with an
error (line 72). -/
inductive Call where
  | test
  | assign
  | wait
  | conn
  | error
deriving Repr, DecidableEq

/-- The listener, the calls of `Accept` in the order in which they began, and whether the program crashed. -/
structure State where
  gram : Net.Gram
  calls : List Call
  crashed : Bool
deriving Repr, DecidableEq

/-- `UnixgramListener` (listener-unixdgram.go:25-61), once it has succeeded. -/
def init : State := ⟨⟨false, false⟩, [], false⟩

/-- The events: a call of `Accept` begins, call `i` does its next step, `Close` is called. -/
inductive Event where
  | begin
  | step (i : Nat)
  | close
deriving Repr, DecidableEq

/-- One event. -/
def step (s : State) (e : Event) : Option State :=
  if s.crashed then none else
  match e with
  | .begin => some { s with calls := s.calls ++ [.test] }
  | .step i =>
    match s.calls[i]? with
    -- listener-unixdgram.go:70
    | some .test => some { s with calls := s.calls.set i (if s.gram.accepted then .wait else .assign) }
    -- listener-unixdgram.go:75-82
    | some .assign => some { s with gram := { s.gram with accepted := true }, calls := s.calls.set i .conn }
    -- listener-unixdgram.go:71-72
    | some .wait => if s.gram.ended then some { s with calls := s.calls.set i .error } else none
    | _ => none
  -- listener-unixdgram.go:63-66
  | .close =>
    match s.gram.close with
    | .ret g => some { s with gram := g }
    | _ => some { s with crashed := true }

/-- A history. -/
def run : State → List Event → Option State
  | s, [] => some s
  | s, e :: r => (step s e).bind fun s' => run s' r

/-! ## A `Receiver` on a datagram listener -/

/-- The receiver, the listener. -/
structure Sys where
  recv : Recv.State
  gram : Net.Gram

/-- `NewReceiver` on a listener that was just made. -/
def Sys.init : Sys := ⟨Recv.init, ⟨false, false⟩⟩

/-- The events: those of the receiver, and a call of `Close` by the program on the listener it gave to the receiver. -/
inductive SysEvent where
  | recv (e : Recv.Event)
  | userClose

/-- Close the listener; closing it twice crashes the program. -/
def Sys.close (s : Sys) (r : Recv.State) : Sys :=
  match s.gram.close with
  | .ret g => ⟨r, g⟩
  | _ => ⟨{ r with crashed := true }, s.gram⟩

/-- One event: those of `Recv.step`, where what `Accept` returns is up to the listener (the only goroutine that calls it is
`runQueue`), and where the deferred `r.listener.Close()` (listener.go:81) is that of the listener. -/
def Sys.step (t : Transport) (lenQueue : Nat) (s : Sys) : SysEvent → Option Sys
  | .recv .acceptOk =>
    match s.gram.accept with
    | (.conn, g) => (Recv.step t lenQueue s.recv .acceptOk).map fun r => ⟨r, g⟩
    | _ => none
  | .recv .acceptErr =>
    match s.gram.accept with
    | (.error, g) => (Recv.step t lenQueue s.recv .acceptErr).map fun r => ⟨r, g⟩
    | _ => none
  | .recv .tau =>
    if s.recv.pc = .closeListener then (Recv.step t lenQueue s.recv .tau).map s.close
    else (Recv.step t lenQueue s.recv .tau).map fun r => ⟨r, s.gram⟩
  | .recv e => (Recv.step t lenQueue s.recv e).map fun r => ⟨r, s.gram⟩
  | .userClose => if s.recv.crashed then none else some (s.close s.recv)

/-- A history. -/
def Sys.run (t : Transport) (lenQueue : Nat) : Sys → List SysEvent → Option Sys
  | s, [] => some s
  | s, e :: r => (s.step t lenQueue e).bind fun s' => Sys.run t lenQueue s' r

/-! ## `tokenize` on the connection of a datagram listener -/

/-- The result of `fakeConn.Read` as `tokenize` sees it (listener-unixdgram.go:93-116): the error of `ReadFrom` is not
`io.EOF`, and only the bytes returned are written to the slice. -/
def asRead (x : Bytes × Bool × Bytes) : Tok.Read := { data := x.1, err := if x.2.1 then .other else .none }

/-- At most `n` iterations of the loop of `tokenize` (listener.go:110-160) on a `fakeConn` whose buffer is `buff`, when
`ReadFrom` answers `q`, in order: every `Read` is given `buffer[done:]` (listener.go:111). It stops when `ReadFrom` would
block. The result: the variables of `tokenize`, the buffer, what was not taken from the system, and the calls of `Read`
(which never return `io.EOF`, so that the loop goes on). -/
def gramLoop (t : Transport) : Nat → Tok.State → Bytes → List Net.Recv → Out (Tok.State × Bytes × List Net.Recv × List Tok.Read)
  | 0, s, buff, q => .ret (s, buff, q, [])
  | n + 1, s, buff, q =>
    if buff.length = 0 then
      match q with
      | [] => .ret (s, buff, [], [])
      | recv :: q => do
        let x := Net.fakeRead buff s.room recv
        let (_, s) ← Tok.step t s (asRead x)
        let (s, buff, q, rs) ← gramLoop t n s x.2.2 q
        return (s, buff, q, asRead x :: rs)
    else do
      let x := Net.fakeRead buff s.room .error
      let (_, s) ← Tok.step t s (asRead x)
      let (s, buff, q, rs) ← gramLoop t n s x.2.2 q
      return (s, buff, q, asRead x :: rs)

end Syslog5424.Datagram
