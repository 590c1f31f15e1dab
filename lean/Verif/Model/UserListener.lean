import Verif.Model.Receiver
/-!
# Model of `listener.go`: the `Receiver` with any listener

`Accept` of the interface `Listener` (listener.go:11-21) can return a connection and an error at the same time, or neither, and
`Read` of a connection written by the user (listener.go:24-30) can say that it has read more bytes than it was given room for. `Model/Receiver.lean` has the
other cases, which are those of the listeners of the package and of the readers that keep the contract of `io.Reader`.
(A `Read` that returns a negative number, and one that returns too large a number together with an error, are left out.)
-/
namespace Syslog5424.Recv

/-- The events of `Model/Receiver.lean`, and the other ones of a listener of the user. -/
inductive UEvent where
  | std (e : Event)
  /-- `Accept` returns a connection together with an error -/
  | both
  /-- `Accept` returns a nil connection without error -/
  | neither
  /-- `Read` of connection `i` returns more than the length of the slice it was given -/
  | over (i : Nat)

/-- The state, and whether the error that `runQueue` is about to send came with a connection. -/
structure UState where
  s : State
  withConn : Bool

/-- `NewReceiver` (listener.go:53-78). -/
def uinit : UState := ⟨init, false⟩

/-- One event. -/
def ustep (t : Transport) (lenQueue : Nat) (u : UState) (ev : UEvent) : Option UState :=
  if u.s.crashed then none else
  match ev with
  -- listener.go:91-92,95: the goroutine is started with the connection
  | .std .tau =>
    if u.s.pc = .errSend ∧ u.withConn then
      if u.s.errs < errCap then some ⟨{ u.s with errs := u.s.errs + 1, conns := u.s.conns ++ [Conn.new], pc := .select }, false⟩
      else none
    else (step t lenQueue u.s .tau).map fun s => { u with s := s }
  | .std e => (step t lenQueue u.s e).map fun s => { u with s := s }
  -- listener.go:90-91
  | .both => if u.s.pc = .accept then some ⟨{ u.s with pc := .errSend }, true⟩ else none
  -- listener.go:90,95
  | .neither => if u.s.pc = .accept then some { u with s := { u.s with nilConns := u.s.nilConns + 1, pc := .select } } else none
  -- listener.go:111,129: `buffer[0:lenRead]` ends behind the array, which panics
  | .over i =>
    match u.s.conns[i]? with
    | none => none
    | some c => if c.running ∧ c.pending.length = 0 ∧ ¬ c.errPending then some { u with s := { u.s with crashed := true } } else none

/-- A history. -/
def urun (t : Transport) (lenQueue : Nat) : UState → List UEvent → Option UState
  | u, [] => some u
  | u, e :: r => (ustep t lenQueue u e).bind fun u' => urun t lenQueue u' r

end Syslog5424.Recv
