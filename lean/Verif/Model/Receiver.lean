import Verif.Model.Tokenizer
/-!
# Model of `listener.go`: the `Receiver`

A transition system: the goroutine `runQueue`, one goroutine `tokenize` per connection, the goroutines that call
`Receive` and `End` and read the error channel, and the environment (`Accept`, `Read`). One event is one step of one
of them.

Simplifications:
* The decoding of one `Read` (listener.go:129-155) is one event, after which the decoded pairs are sent one by one.
  In the code decoding and sending alternate; decoding touches nothing that is shared, so only the moment of a panic
  inside `Parse` differs (`Model/Stepwise.lean` is without this simplification; C93 relates the two).
* A direct transfer between a waiting `Receive` and a sending tokenizer is one event (`handoff`); with a queue this is
  the same as a transfer through the queue.
* The listeners (listener-tcp.go:35-49, listener-unix.go:49-63, listener-unixdgram.go:63-83) are the environment: any
  sequence of connections and errors.
* Interleavings are sequentially consistent (channel operations are).
-/
namespace Syslog5424.Recv

/-- A connection and its goroutine `tokenize` (listener.go:101-161): its variables, the pairs decoded and not yet
sent on the pipeline, whether a read error is still to be sent, whether the loop goes on, whether the deferred
`conn.Close()` was run. -/
structure Conn where
  tok : Tok.State
  pending : List Tok.Delivered
  errPending : Bool
  running : Bool
  closed : Bool

/-- A connection just accepted (listener.go:95). -/
def Conn.new : Conn := ⟨Tok.init, [], false, true, false⟩

/-- Where `runQueue` is (listener.go:80-99): before the select, inside `Accept`, sending the error of `Accept`, before
the deferred `close(r.pipeline)`, before the deferred `r.listener.Close()`, returned. -/
inductive PC where
  | select
  | accept
  | errSend
  | closePipe
  | closeListener
  | done
deriving Repr, DecidableEq

/-- The state: the pipeline (its content, with the connection each pair comes from), the error channel (how many
errors it holds), `end`, the connections in the order of `Accept`, the number of goroutines started with a nil
connection that have not run yet, what `Receive` has returned so far (in order), and whether the program crashed. -/
structure State where
  pc : PC
  pipeline : List (Nat × Tok.Delivered)
  pipelineClosed : Bool
  errs : Nat
  ended : Bool
  conns : List Conn
  nilConns : Nat
  got : List (Nat × Tok.Delivered)
  crashed : Bool

/-- `NewReceiver` (listener.go:53-78). -/
def init : State := ⟨.select, [], false, 0, false, [], 0, [], false⟩

/-- The capacity of the error channel (listener.go:73). -/
def errCap : Nat := 10

/-- The events: `Accept` returning (a connection, or an error), other steps of `runQueue`; for connection `i`: a call
of `Read` that returns, the sending of its error, the sending of a pair, the end of its goroutine; a goroutine with a
nil connection starting; calls of `Receive` that return something from the queue, directly from a tokenizer, or that
the pipeline is closed; `End`; a receive on the error channel. -/
inductive Event where
  | acceptOk
  | acceptErr
  | tau
  | read (i : Nat) (r : Tok.Read)
  | sendErr (i : Nat)
  | sendMsg (i : Nat)
  | close (i : Nat)
  | nilStart
  | recv
  | handoff (i : Nat)
  | recvClosed
  | endCall
  | recvErr

/-- Replace connection `i`. -/
def State.setConn (s : State) (i : Nat) (c : Conn) : State := { s with conns := s.conns.set i c }

/-- One event, for the queue length `lenQueue` (listener.go:60-64: no queue if it is not positive); `none` when it
cannot happen (or the program crashed before). -/
def step (t : Transport) (lenQueue : Nat) (s : State) (e : Event) : Option State :=
  if s.crashed then none else
  match e with
  -- listener.go:85-90
  | .tau =>
    match s.pc with
    | .select => some { s with pc := if s.ended then .closePipe else .accept }
    -- listener.go:91-92,95
    | .errSend => if s.errs < errCap then some { s with errs := s.errs + 1, nilConns := s.nilConns + 1, pc := .select } else none
    -- listener.go:82
    | .closePipe => some { s with pipelineClosed := true, pc := .closeListener }
    -- listener.go:81
    | .closeListener => some { s with pc := .done }
    | _ => none
  -- listener.go:90,95
  | .acceptOk => if s.pc = .accept then some { s with conns := s.conns ++ [Conn.new], pc := .select } else none
  -- listener.go:90-91
  | .acceptErr => if s.pc = .accept then some { s with pc := .errSend } else none
  -- listener.go:101-102: calling a method of a nil interface panics
  | .nilStart => if 0 < s.nilConns then some { s with crashed := true } else none
  -- listener.go:111-160
  | .read i r =>
    match s.conns[i]? with
    | none => none
    | some c =>
      if c.running ∧ c.pending.length = 0 ∧ ¬ c.errPending ∧ r.Fits c.tok then
        match Tok.step t c.tok r with
        | .ret (goOn, tok) =>
          some (s.setConn i { c with tok := tok, pending := tok.out.drop c.tok.out.length,
                                     errPending := decide (r.err = .other), running := goOn })
        | .panic => some { s with crashed := true }
        | .hang => none
      else none
  -- listener.go:119-121
  | .sendErr i =>
    match s.conns[i]? with
    | none => none
    | some c => if c.errPending ∧ s.errs < errCap then some ({ s with errs := s.errs + 1 }.setConn i { c with errPending := false }) else none
  -- listener.go:142: sending on a closed channel panics
  | .sendMsg i =>
    match s.conns[i]? with
    | none => none
    | some c =>
      match c.pending with
      | [] => none
      | d :: r =>
        if c.errPending then none
        else if s.pipelineClosed then some { s with crashed := true }
        else if s.pipeline.length < lenQueue then
          some ({ s with pipeline := s.pipeline ++ [(i, d)] }.setConn i { c with pending := r })
        else none
  -- listener.go:102, when the loop has returned
  | .close i =>
    match s.conns[i]? with
    | none => none
    | some c =>
      if ¬ c.running ∧ c.pending.length = 0 ∧ ¬ c.errPending ∧ ¬ c.closed then some (s.setConn i { c with closed := true })
      else none
  -- listener.go:164-168
  | .recv =>
    match s.pipeline with
    | [] => none
    | x :: r => some { s with pipeline := r, got := s.got ++ [x] }
  -- listener.go:142,165
  | .handoff i =>
    match s.conns[i]? with
    | none => none
    | some c =>
      match c.pending with
      | [] => none
      | d :: r =>
        if c.errPending ∨ s.pipelineClosed ∨ s.pipeline.length ≠ 0 then none
        else some ({ s with got := s.got ++ [(i, d)] }.setConn i { c with pending := r })
  -- listener.go:165: a closed and empty channel; the result is not a message
  | .recvClosed => if s.pipelineClosed ∧ s.pipeline.length = 0 then some s else none
  -- listener.go:171-173: closing a closed channel panics
  | .endCall => if s.ended then some { s with crashed := true } else some { s with ended := true }
  | .recvErr => if 0 < s.errs then some { s with errs := s.errs - 1 } else none

/-- A history. -/
def run (t : Transport) (lenQueue : Nat) : State → List Event → Option State
  | s, [] => some s
  | s, e :: r => (step t lenQueue s e).bind fun s' => run t lenQueue s' r

end Syslog5424.Recv
