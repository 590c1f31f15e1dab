import Verif.Model.Receiver
/-!
# Model of `listener.go`: `Receive` and `End` as calls of goroutines

In `Model/Receiver.lean` one event is a whole call of `Receive` or `End`. Here several goroutines of the user call them; a
call begins, waits for the channel, takes something from it or learns that it is closed, and returns; everything else can
happen in between.
-/
namespace Syslog5424.Recv

/-- A call of the user: `Receive()` (listener.go:164) or `End()` (listener.go:171). -/
inductive ROp where
  | receive
  | endCall

/-- What `Receive` returns: a pair with the connection it comes from, or that the pipeline is closed (listener.go:165-167). -/
abbrev Result := Option (Nat × Tok.Delivered)

/-- Where a goroutine of the user is: not inside a call; in `Receive` before the pipeline gave something (listener.go:165);
in `Receive` with what it will return (listener.go:167); in `End` before `close` (listener.go:172), and after it. -/
inductive RG where
  | idle
  | waiting
  | taken (r : Result)
  | close
  | ended

/-- The state: that of the receiver, where the goroutines of the user are, and (a record) what calls of `Receive` have
returned, with the goroutine, in the order of the returns. -/
structure RState where
  s : State
  at_ : Nat → RG
  results : List (Nat × Result)

/-- `NewReceiver` (listener.go:53-78). -/
def rinit : RState := ⟨init, fun _ => .idle, []⟩

/-- How the pipeline gives something to a goroutine in `Receive`: from the queue, from the tokenizer of connection `i` that
waits to send, or that it is closed. -/
inductive Way where
  | queue
  | direct (i : Nat)
  | closed

/-- The event of `Model/Receiver.lean`. -/
def Way.event : Way → Event
  | .queue => .recv
  | .direct i => .handoff i
  | .closed => .recvClosed

/-- The events: goroutine `g` calls, the pipeline gives something to it, it makes its step inside `End`, its call returns;
and the events of `runQueue`, of the tokenizers, of the environment and of the reader of the error channel. -/
inductive REvent where
  | call (g : Nat) (o : ROp)
  | take (g : Nat) (w : Way)
  | tau (g : Nat)
  | ret (g : Nat)
  | other (e : Event)

/-- Goroutine `g` goes to `x`. -/
def RState.go (f : RState) (g : Nat) (x : RG) : RState := { f with at_ := fun i => if i = g then x else f.at_ i }

/-- One event. -/
def rstep (t : Transport) (lenQueue : Nat) (f : RState) (ev : REvent) : Option RState :=
  if f.s.crashed then none else
  match ev with
  | .call g o =>
    match f.at_ g, o with
    | .idle, .receive => some (f.go g .waiting)
    | .idle, .endCall => some (f.go g .close)
    | _, _ => none
  -- listener.go:165: the pair, which `Recv.step` puts at the end of `got`
  | .take g w =>
    match f.at_ g with
    | .waiting => (step t lenQueue f.s w.event).map fun s => { f with s := s }.go g (.taken (s.got.drop f.s.got.length).head?)
    | _ => none
  -- listener.go:172
  | .tau g =>
    match f.at_ g with
    | .close => (step t lenQueue f.s .endCall).map fun s => { f with s := s }.go g .ended
    | _ => none
  | .ret g =>
    match f.at_ g with
    | .taken r => some { f.go g .idle with results := f.results ++ [(g, r)] }
    | .ended => some (f.go g .idle)
    | _ => none
  | .other e =>
    match e with
    | .recv => none
    | .handoff _ => none
    | .recvClosed => none
    | .endCall => none
    | e => (step t lenQueue f.s e).map fun s => { f with s := s }

/-- A history. -/
def rrun (t : Transport) (lenQueue : Nat) : RState → List REvent → Option RState
  | f, [] => some f
  | f, e :: r => (rstep t lenQueue f e).bind fun f' => rrun t lenQueue f' r

end Syslog5424.Recv
