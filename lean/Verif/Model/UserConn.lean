import Verif.Model.Sender
/-!
# Model of `connector.go`: the `Sender` with any connector function

`Connect` of the interface `Connector` (connector.go:14-16), and so a `ConnectorFunc` (connector.go:20,48-50), can return a
connection and an error at the same time, or neither. `Model/Sender.lean` has the other two cases, which are those of the
connectors of the package. Here are all four.
-/
namespace Syslog5424.Sender

/-- The events of `Model/Sender.lean`, and the other two results of `Connect`. -/
inductive UEvent where
  | std (e : Event)
  /-- `Connect` returns a connection together with an error -/
  | both (e : Nat)
  /-- `Connect` returns a nil connection without error -/
  | neither

/-- The state, and whether `runQueue` panicked and runs its deferred function (connector.go:111-118) for this reason. -/
structure UState where
  s : State
  panicking : Bool
deriving DecidableEq

/-- `NewSender` (connector.go:53-69). -/
def uinit : UState := ⟨init, false⟩

/-- One event. -/
def ustep (t : Transport) (u : UState) (ev : UEvent) : Option UState :=
  if u.s.crashed then none else
  match ev, u.s.pc with
  -- connector.go:74-77: `c.output` is assigned even if there is an error
  | .both e, .connect fin =>
    some { u with s := { u.s with output := true, conns := u.s.conns ++ [⟨[], false⟩], pc := .errConn fin (.connect e) } }
  -- connector.go:74: `c.output` stays nil, there is no error
  | .neither, .connect fin => some { u with s := { u.s with pc := .lock fin } }
  -- connector.go:84-85: `WriteTo` calls `Write` of a nil interface, which panics; the deferred calls (connector.go:82, then
  -- 111-118) run, a second panic in the latter ends the program
  | .std .tau, .loop fin =>
    if u.s.queue.length > 0 ∧ u.s.output = false then
      if fin then some { u with s := { u.s with crashed := true } }
      else some ⟨{ u.s with locked := false, pc := .drain }, true⟩
    else (step t u.s .tau).map fun s => { u with s := s }
  -- connector.go:117: the end of the deferred function, the panic goes on
  | .std .tau, .closeErr =>
    if u.panicking then some { u with s := { u.s with errClosed := true, crashed := true } }
    else (step t u.s .tau).map fun s => { u with s := s }
  | .std e, _ => (step t u.s e).map fun s => { u with s := s }
  | _, _ => none

/-- A history. -/
def urun (t : Transport) : UState → List UEvent → Option UState
  | u, [] => some u
  | u, e :: r => (ustep t u e).bind fun u' => urun t u' r

end Syslog5424.Sender
