import Verif.Model.AnyWriter
import Verif.Spec.Sender
/-! # Specification: writers that break the contract of `io.Writer` -/
namespace Syslog5424.Spec
open Sender

/-- The events of a history other than calls of such a writer. -/
def keepingOf (es : List WEvent) : List Event := es.filterMap fun e => match e with
  | .std e => some e
  | .any _ _ => none

/-- In every state of the history in which `Write` returns `nb` bytes and the error `r`, having been given the frame `b` of a queue
with `left` frames behind it, `P nb r b left` holds. -/
def EveryWrite (t : Transport) (P : Nat → Option WErr → Bytes → Nat → Prop) : State → List WEvent → Prop
  | _, [] => True
  | s, e :: r =>
    (∀ nb w, e = .any nb w → ∀ fin k n b, s.pc = .write fin k n → s.queue[k]? = some b → P nb w b (s.queue.length - (k + 1))) ∧
    ∀ s', wstep t s e = some s' → EveryWrite t P s' r

/-- `Write` never reports more than it was given. -/
def NeverTooMany (t : Transport) (es : List WEvent) : Prop := EveryWrite t (fun nb _ b _ => nb ≤ b.length) init es

/-- And it reports less without an error only for the last frame of the queue. -/
def ShortAtEndOnly (t : Transport) (es : List WEvent) : Prop :=
  EveryWrite t (fun nb r b left => nb ≤ b.length ∧ (r = none → nb = b.length ∨ left = 0)) init es

end Syslog5424.Spec
