import Verif.Model.Calls
/-!
# Model of `connector.go`: calls of `Send` and `End` that panic and are recovered by their caller

`Model/Calls.lean` ends the program when a call panics. Here the goroutine that called recovers (as the handlers of an HTTP
server do) and goes on. `Marshal5424` (connector.go:137) can panic, `Encode` (connector.go:143) of a transport of the user can,
with the lock, which nobody releases then (there is no `defer` in `Send`), and `close` (connector.go:151) does when `End` is
called twice. A panic in the goroutine of the sender cannot be recovered.
-/
namespace Syslog5424.Sender

/-- One event. The transport encodes as `t` does, but panics on the payloads in `bad` (a nil transport panics on all of them;
those of the package on none). -/
def pstep (t : Transport) (bad : Bytes → Bool) (f : FState) (ev : FEvent) : Option FState :=
  if f.s.crashed then none else
  match ev with
  | .tau g =>
    match f.at_ g with
    -- connector.go:137
    | .marshal m =>
      match m.marshal with
      | .panic => some (f.go g .idle)
      | _ => fstep t f (.tau g)
    -- connector.go:143: the lock is not released
    | .append _ b => if bad b then some (f.go g .idle) else fstep t f (.tau g)
    -- connector.go:151
    | .close => if f.s.endAsked then some (f.go g .idle) else fstep t f (.tau g)
    | _ => fstep t f (.tau g)
  | e => fstep t f e

/-- A history. -/
def prun (t : Transport) (bad : Bytes → Bool) : FState → List FEvent → Option FState
  | f, [] => some f
  | f, e :: r => (pstep t bad f e).bind fun f' => prun t bad f' r

end Syslog5424.Sender
