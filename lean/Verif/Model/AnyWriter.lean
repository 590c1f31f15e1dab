import Verif.Model.Sender
/-!
# Model of `connector.go`: the `Sender` with any `Write`

`Write` of a connection written by the user (connector.go:22-26, an `io.Writer`) can break the contract of `io.Writer`: it can report fewer
bytes than it was given without an error, or more bytes than it was given. `Model/Sender.lean` has the writers that keep it.

Simplification: a `Write` that reports `nb` bytes has accepted the first `nb` bytes of its argument (all of it if there are
fewer), and `nb` is not negative. `net.Buffers.WriteTo` is its generic path, one `Write` per buffer.
-/
namespace Syslog5424.Sender

/-- The events of `Model/Sender.lean`, and a `Write` that reports any number of bytes, with or without an error. -/
inductive WEvent where
  | std (e : Event)
  | any (nb : Nat) (r : Option WErr)

/-- One event. -/
def wstep (t : Transport) (s : State) (ev : WEvent) : Option State :=
  match ev with
  | .std e => step t s e
  | .any nb r =>
    if s.crashed then none else
    match s.pc with
    -- connector.go:85: `WriteTo` adds what `Write` reports, and looks at nothing but the error
    | .write fin k n =>
      match s.queue[k]? with
      | none => none
      | some b =>
        match r with
        | none => some { s with conns := addWrite (b.take nb) s.conns, pc := .write fin (k + 1) (n + nb) }
        -- connector.go:90-92
        | some .nobufs => some { s with conns := addWrite (b.take nb) s.conns, queue := consume s.queue (n + nb), pc := .unlock fin }
        -- connector.go:93,98
        | some (.other e) =>
          some { s with conns := addWrite (b.take nb) s.conns, queue := consume s.queue (n + nb), pc := .errWrite fin (.write e) }
    | _ => none

/-- A history. -/
def wrun (t : Transport) : State → List WEvent → Option State
  | s, [] => some s
  | s, e :: r => (wstep t s e).bind fun s' => wrun t s' r

end Syslog5424.Sender
