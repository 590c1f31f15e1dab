import Verif.Model.Message
import Verif.Model.Transport
/-!
# Model of `connector.go`: the `Sender`

A transition system: the goroutine `runQueue`, any number of goroutines that call `Send` and `End`, the reader of the
error channel, and the environment (ticker, `Connect`, `Write`). One event is one step of one of them.

Simplifications:
* `Send` holds the lock only around one `append`, where it cannot block: lock, append and unlock are one event, which
  can happen only when `runQueue` does not hold the lock. `Verif/Model/Calls.lean` has the steps one by one; C92 proves that
  this makes no difference.
* The capacity of the queue (connector.go:64,104-106) has no observable effect and is not modelled.
* `Connect` returns a connection or an error, as all the connectors of the package do; for a `ConnectorFunc`
  (connector.go:48-50) that returns both or neither see `Verif/Model/UserConn.lean` (C91). `Addr` (connector.go:155-162) is never used.
* Interleavings are sequentially consistent (the deferred function reads the length of the queue without the lock,
  connector.go:112).
* `net.Buffers.WriteTo` is modelled as its generic path: one `Write` per buffer. Connections that implement `writev`
  write several buffers at once (`Verif/Model/Writev.lean`); C76 proves that this makes no difference but the grouping of
  the writes.
-/
namespace Syslog5424.Sender

/-- What `Write` can report, as far as `flushQueue` looks at it (connector.go:87-101): `ENOBUFS` inside a
`*net.OpError`, or anything else. -/
inductive WErr where
  | nobufs
  | other (e : Nat)
deriving Repr, DecidableEq

/-- Errors put on the error channel. -/
inductive SErr where
  | connect (e : Nat)
  | write (e : Nat)
deriving Repr, DecidableEq

/-- A connection returned by `Connect`: the bytes accepted by each `Write`, in order, and whether it was closed. -/
structure Conn where
  writes : List Bytes
  closed : Bool
deriving Repr, DecidableEq

/-- Where `runQueue` is (connector.go:71-131). `fin` tells whether `flushQueue` was called by the deferred function. -/
inductive PC where
  /-- connector.go:121 -/
  | select
  /-- connector.go:72 -/
  | test (fin : Bool)
  /-- connector.go:74, calling `Connect` -/
  | connect (fin : Bool)
  /-- connector.go:75, sending the error -/
  | errConn (fin : Bool) (e : SErr)
  /-- connector.go:81 -/
  | lock (fin : Bool)
  /-- connector.go:84 -/
  | loop (fin : Bool)
  /-- connector.go:85, inside `WriteTo`: about to write buffer `k`, with `n` bytes already written -/
  | write (fin : Bool) (k n : Nat)
  /-- connector.go:93,98, sending the error, with the lock -/
  | errWrite (fin : Bool) (e : SErr)
  /-- connector.go:82, unlocking, returning -/
  | unlock (fin : Bool)
  /-- connector.go:112 -/
  | drain
  /-- connector.go:115 -/
  | closeOut
  /-- connector.go:116 -/
  | closeDone
  /-- connector.go:117 -/
  | closeErr
  | done
deriving Repr, DecidableEq

/-- The state: the fields of `Sender` (connector.go:28-38), every connection made so far (oldest first; `output`
tells whether `c.output` is not nil, it is then the last connection), and whether the program crashed. -/
structure State where
  queue : List Bytes
  conns : List Conn
  output : Bool
  locked : Bool
  errs : List SErr
  endAsked : Bool
  endCompleted : Bool
  errClosed : Bool
  crashed : Bool
  pc : PC
deriving Repr, DecidableEq

/-- `NewSender` (connector.go:53-69). -/
def init : State := ⟨[], [], false, false, [], false, false, false, false, .select⟩

/-- `net.Buffers.consume` (Go 1.x `net/net.go`): drops the first `n` bytes. -/
def consume : List Bytes → Nat → List Bytes
  | [], _ => []
  | b :: r, n => if b.length > n then b.drop n :: r else consume r (n - b.length)

/-- The bytes `d` are accepted by the current connection. -/
def addWrite (d : Bytes) : List Conn → List Conn
  | [] => []
  | [c] => [{ c with writes := c.writes ++ [d] }]
  | c :: r => c :: addWrite d r

/-- The current connection is closed. -/
def closeLast : List Conn → List Conn
  | [] => []
  | [c] => [{ c with closed := true }]
  | c :: r => c :: closeLast r

/-- The events: calls of the user (`send`, `endCall`, `recvErr` for a receive on the error channel, with what is received), the ticker, the
select noticing the end, the result of `Connect` (`none` is a success), the result of `Write`, and any other step of
`runQueue`. -/
inductive Event where
  | send (m : Message)
  | endCall
  | recvErr (e : SErr)
  | tick
  | seeEnd
  | connect (r : Option Nat)
  | write (nb : Nat) (r : Option WErr)
  | tau


/-- Where `runQueue` goes when `flushQueue` returns. -/
def ret (fin : Bool) : PC := if fin then .drain else .select

/-- One event; `none` when it cannot happen (or the program crashed before). -/
def step (t : Transport) (s : State) (e : Event) : Option State :=
  if s.crashed then none else
  match e, s.pc with
  -- connector.go:134-147
  | .send m, _ =>
    match m.marshal with
    | .ret (.ok b) => if s.locked then none else some { s with queue := s.queue ++ [t.encode b] }
    | .ret (.error _) => some s
    | .panic => some { s with crashed := true }
    | .hang => none
  -- connector.go:151: closing a closed channel panics
  | .endCall, _ => if s.endAsked then some { s with crashed := true } else some { s with endAsked := true }
  -- a receive on the error channel, when something is there
  | .recvErr e, _ => match s.errs with
    | [] => none
    | e' :: r => if e = e' then some { s with errs := r } else none
  -- connector.go:122-123
  | .tick, .select => some { s with pc := .test false }
  -- connector.go:125-128
  | .seeEnd, .select => if s.endAsked then some { s with pc := .drain } else none
  -- connector.go:72
  | .tau, .test fin => some { s with pc := if s.output then .lock fin else .connect fin }
  -- connector.go:74
  | .connect none, .connect fin => some { s with output := true, conns := s.conns ++ [⟨[], false⟩], pc := .lock fin }
  | .connect (some e), .connect fin => some { s with pc := .errConn fin (.connect e) }
  -- connector.go:75-76: the channel has room for one error
  | .tau, .errConn fin e => if s.errs.length < 1 then some { s with errs := s.errs ++ [e], pc := ret fin } else none
  -- connector.go:81
  | .tau, .lock fin => if s.locked then none else some { s with locked := true, pc := .loop fin }
  -- connector.go:84
  | .tau, .loop fin => some { s with pc := if s.queue.length > 0 then .write fin 0 0 else .unlock fin }
  -- connector.go:85: the end of `WriteTo`, everything was written
  | .tau, .write fin k n =>
    if k < s.queue.length then none else some { s with queue := consume s.queue n, pc := .loop fin }
  -- connector.go:85: one `Write`; by the contract of `io.Writer` fewer bytes than given means an error
  | .write nb r, .write fin k n =>
    match s.queue[k]? with
    | none => none
    | some b =>
      if nb ≤ b.length then
        match r with
        | none =>
          if nb = b.length then some { s with conns := addWrite (b.take nb) s.conns, pc := .write fin (k + 1) (n + nb) } else none
        -- connector.go:90-92
        | some .nobufs => some { s with conns := addWrite (b.take nb) s.conns, queue := consume s.queue (n + nb), pc := .unlock fin }
        | some (.other e) =>
          some { s with conns := addWrite (b.take nb) s.conns, queue := consume s.queue (n + nb), pc := .errWrite fin (.write e) }
      else none
  -- connector.go:93-95,98-100 and the deferred unlock; the old connection is not closed
  | .tau, .errWrite fin e =>
    if s.errs.length < 1 then some { s with errs := s.errs ++ [e], output := false, pc := .unlock fin } else none
  -- connector.go:82
  | .tau, .unlock fin => some { s with locked := false, pc := ret fin }
  -- connector.go:112-113
  | .tau, .drain => some { s with pc := if s.queue.length > 0 then .test true else .closeOut }
  -- connector.go:115: a nil interface panics
  | .tau, .closeOut =>
    if s.output then some { s with conns := closeLast s.conns, pc := .closeDone } else some { s with crashed := true }
  -- connector.go:116
  | .tau, .closeDone => some { s with endCompleted := true, pc := .closeErr }
  -- connector.go:117
  | .tau, .closeErr => some { s with errClosed := true, pc := .done }
  | _, _ => none

/-- A history: a sequence of events that happen one after the other. -/
def run (t : Transport) : State → List Event → Option State
  | s, [] => some s
  | s, e :: r => (step t s e).bind fun s' => run t s' r

end Syslog5424.Sender
