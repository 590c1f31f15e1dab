import Verif.Model.Sender
/-!
# Model of `connector.go`: `Send` and `End` as calls of goroutines, step by step

`Model/Sender.lean` has one event for a call of `Send` and one for `End`. Here every call is a sequence of steps between
which everything else can happen: the call, `Marshal5424`, taking the lock, `append`, releasing the lock, the return.
-/
namespace Syslog5424.Sender

/-- A call of the user: `Send(m)` (connector.go:134) or `End()` (connector.go:150). -/
inductive CallOp where
  | send (m : Message)
  | endCall

/-- Where a goroutine of the user is. -/
inductive G where
  /-- not inside a call -/
  | idle
  /-- `Send` called, connector.go:137 -/
  | marshal (m : Message)
  /-- connector.go:142, waiting for the lock -/
  | lock (m : Message) (b : Bytes)
  /-- connector.go:143, with the lock -/
  | append (m : Message) (b : Bytes)
  /-- connector.go:144, with the lock -/
  | unlock (m : Message)
  /-- connector.go:139,146: about to return this error, or nil -/
  | retSend (m : Message) (e : Option Err)
  /-- `End` called, connector.go:151 -/
  | close
  /-- connector.go:152 -/
  | wait

/-- The state: that of the sender, the goroutine of the user that holds the lock (`s.locked` tells whether `runQueue` holds
it), where the goroutines of the user are. -/
structure FState where
  s : State
  holder : Option Nat
  at_ : Nat → G

/-- `NewSender` (connector.go:53-69). -/
def finit : FState := ⟨init, none, fun _ => .idle⟩

/-- The events: goroutine `g` calls, makes a step inside its call, its call returns; and the events of `runQueue`, of the
environment and of the reader of the error channel. -/
inductive FEvent where
  | call (g : Nat) (o : CallOp)
  | tau (g : Nat)
  | ret (g : Nat)
  | other (e : Event)

/-- Goroutine `g` goes to `x`. -/
def FState.go (f : FState) (g : Nat) (x : G) : FState := { f with at_ := fun i => if i = g then x else f.at_ i }

/-- `runQueue` takes the lock (connector.go:81). -/
def takesLock : PC → Event → Bool
  | .lock _, .tau => true
  | _, _ => false

/-- One event. -/
def fstep (t : Transport) (f : FState) (ev : FEvent) : Option FState :=
  if f.s.crashed then none else
  match ev with
  | .call g o =>
    match f.at_ g, o with
    | .idle, .send m => some (f.go g (.marshal m))
    | .idle, .endCall => some (f.go g .close)
    | _, _ => none
  | .tau g =>
    match f.at_ g with
    -- connector.go:137-140
    | .marshal m =>
      match m.marshal with
      | .ret (.ok b) => some (f.go g (.lock m b))
      | .ret (.error e) => some (f.go g (.retSend m (some e)))
      | .panic => some { f with s := { f.s with crashed := true } }
      | .hang => none
    -- connector.go:142
    | .lock m b => if f.s.locked ∨ f.holder.isSome then none else some ({ f with holder := some g }.go g (.append m b))
    -- connector.go:143
    | .append m b => some ({ f with s := { f.s with queue := f.s.queue ++ [t.encode b] } }.go g (.unlock m))
    -- connector.go:144
    | .unlock m => some ({ f with holder := none }.go g (.retSend m none))
    -- connector.go:151: closing a closed channel panics
    | .close =>
      if f.s.endAsked then some { f with s := { f.s with crashed := true } }
      else some ({ f with s := { f.s with endAsked := true } }.go g .wait)
    | _ => none
  | .ret g =>
    match f.at_ g with
    | .retSend _ _ => some (f.go g .idle)
    -- connector.go:152
    | .wait => if f.s.endCompleted then some (f.go g .idle) else none
    | _ => none
  | .other e =>
    match e with
    | .send _ => none
    | .endCall => none
    | e =>
      if takesLock f.s.pc e ∧ f.holder.isSome then none
      else (step t f.s e).map fun s => { f with s := s }

/-- A history. -/
def frun (t : Transport) : FState → List FEvent → Option FState
  | f, [] => some f
  | f, e :: r => (fstep t f e).bind fun f' => frun t f' r

end Syslog5424.Sender
