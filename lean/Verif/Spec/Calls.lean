import Verif.Model.Calls
import Verif.Spec.Sender
/-! # Specification: the calls of `Send` and `End` by several goroutines, each with a beginning and an end -/
namespace Syslog5424.Spec
open Sender

/-- A history of a new sender, where the calls are made of steps. -/
def FHistory (t : Transport) (h : List FEvent) (f : FState) : Prop := frun t finit h = some f

/-- The calls that goroutine `g` began, in order. -/
def called (g : Nat) : List FEvent → List CallOp
  | [] => []
  | .call g' o :: r => if g' = g then o :: called g r else called g r
  | _ :: r => called g r

/-- How many of its calls returned: a goroutine is sequential, so they are the first ones. -/
def returns (g : Nat) : List FEvent → Nat
  | [] => 0
  | .ret g' :: r => (if g' = g then 1 else 0) + returns g r
  | _ :: r => returns g r

/-- The other events, in order. -/
def others : List FEvent → List Event
  | [] => []
  | .other e :: r => e :: others r
  | _ :: r => others r

/-- The event of `Model/Sender.lean` in which the whole call takes place at once. -/
def opEvent : CallOp → Event
  | .send m => .send m
  | .endCall => .endCall

/-- The events of goroutine `g` in a sequence where every call is one event, with its goroutine. -/
def own (g : Nat) (l : List (Option Nat × Event)) : List Event := (l.filter fun x => x.1 = some g).map (·.2)

/-- The events that are not calls. -/
def rest (l : List (Option Nat × Event)) : List Event := (l.filter fun x => x.1 = none).map (·.2)

/-- `l` is an explanation of the history `h`, that ended in `f`, by calls that take place at once: they lead to the same
state; every goroutine made its calls in this order, those that returned are there, each once, and nothing else is; the
other events are the same. -/
structure Explains (t : Transport) (h : List FEvent) (f : FState) (l : List (Option Nat × Event)) : Prop where
  state : History t (l.map (·.2)) f.s
  order (g : Nat) : own g l <+: (called g h).map opEvent
  done (g : Nat) : returns g h ≤ (own g l).length
  others : rest l = Spec.others h

/-- Is this between taking and releasing the lock? -/
def inside : G → Bool
  | .append _ _ => true
  | .unlock _ => true
  | _ => false

/-- The message of a call of `Send` that is accepted: one that can be marshalled. -/
def acceptedSend : Event → Option Message
  | .send m => match m.marshal with
    | .ret (.ok _) => some m
    | _ => none
  | _ => none

/-- The messages of the accepted calls of `Send`, in order. -/
def accepted (ops : List CallOp) : List Message := ops.filterMap fun o => acceptedSend (opEvent o)

/-- The frame of a message. -/
def frameOf (t : Transport) (m : Message) : Bytes :=
  match m.marshal with
  | .ret (.ok b) => t.encode b
  | _ => []

/-- What was written, then what waits to be written. -/
def writtenAndWaiting (s : State) : Bytes :=
  wire s ++ s.queue.flatten.drop (match s.pc with | .write _ _ n => n | _ => 0)

/-- The items of goroutine `g` in a sequence of items (messages, log lines) with their goroutines. -/
def ofGoroutine {α : Type} (g : Nat) (a : List (Nat × α)) : List α := (a.filter fun x => x.1 = g).map (·.2)

/-- The sequence `a` has the accepted messages of the history `h`: for every goroutine its messages in the order of its
calls, all those whose `Send` returned, none whose `Send` was not called. -/
def Accepted (h : List FEvent) (a : List (Nat × Message)) : Prop :=
  ∀ g, accepted ((called g h).take (returns g h)) <+: ofGoroutine g a ∧ ofGoroutine g a <+: accepted (called g h)

/-- The calls of all goroutines in the order in which they begin. -/
def calls : List FEvent → List CallOp
  | [] => []
  | .call _ o :: r => o :: calls r
  | _ :: r => calls r

/-- The call that an event of `Model/Sender.lean` stands for. -/
def opOf : Event → Option CallOp
  | .send m => some (.send m)
  | .endCall => some .endCall
  | _ => none

/-- Where a call takes place: the event of `Model/Sender.lean`, with its goroutine, that an event in the state `f` stands for. -/
def takesPlace (f : FState) : FEvent → Option (Option Nat × Event)
  | .call _ _ => none
  | .tau g =>
    match f.at_ g with
    | .marshal m =>
      match m.marshal with
      | .ret (.ok _) => none
      | _ => some (some g, .send m)
    | .append m _ => some (some g, .send m)
    | .close => some (some g, .endCall)
    | _ => none
  | .ret _ => none
  | .other e => some (none, e)

end Syslog5424.Spec
