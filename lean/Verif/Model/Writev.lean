import Verif.Model.Sender
import Verif.Model.Net
/-!
# Model of `net.Buffers.WriteTo` on connections that have `writev`

`net.Buffers.WriteTo(w)` (called by `flushQueue`, connector.go:85) has two paths: one `Write` per buffer, which is what
`Verif/Model/Sender.lean` has, and, when `w` is a `*net.TCPConn` or a `*net.UnixConn`, `writev`, which writes the buffers
together. `tcpConn.Connect` (connector-tcp.go:85-92) and `localConn.Connect` (connector-local.go:24-46) return such
connections (except for the network `unixgram`, connector-local.go:41-43); the standard streams are `*os.File`s, and those
of a `ConnectorFunc` (connector.go:48-50) can be anything.
-/
namespace Syslog5424.Sender

/-- The events of a sender, and `writev`: `nb` bytes of the queue, in order and across the buffers, were accepted by the
connection, then it reported `r`. -/
inductive VEvent where
  | ev (e : Event)
  | writev (nb : Nat) (r : Option WErr)

/-- One event. `writev` happens where `WriteTo` begins (connector.go:85); without an error everything was written (the
package `net` repeats the system call until then). What was accepted is removed from the queue in all cases
(`net.Buffers.consume`); the cases of `r` are those of `flushQueue` (connector.go:87-101). -/
def stepV (t : Transport) (s : State) : VEvent → Option State
  | .ev e => step t s e
  | .writev nb r =>
    if s.crashed then none else
    match s.pc with
    | .write fin 0 0 =>
      if nb ≤ s.queue.flatten.length then
        let conns := addWrite (s.queue.flatten.take nb) s.conns
        let queue := consume s.queue nb
        match r with
        | none => if nb = s.queue.flatten.length then some { s with conns := conns, queue := queue, pc := .loop fin } else none
        | some .nobufs => some { s with conns := conns, queue := queue, pc := .unlock fin }
        | some (.other e) => some { s with conns := conns, queue := queue, pc := .errWrite fin (.write e) }
      else none
    | _ => none

/-- A history. -/
def runV (t : Transport) : State → List VEvent → Option State
  | s, [] => some s
  | s, e :: r => (stepV t s e).bind fun s' => runV t s' r

end Syslog5424.Sender

namespace Syslog5424.Net

/-- Whether the connection that `localConn.Connect` returned is a `unixgram` (connector-local.go:40-43), which only has
`Write` and `Close` (connector-local.go:48-54), so that `net.Buffers.WriteTo` writes one buffer at a time; otherwise it
is a `*net.UnixConn`, which has `writev`. The field `network` is tested after `osGuessConnnector` may have set it
(connector-local.go:29, connector-local_unix.go:22,37). -/
def LocalResult.oneByOne (r : LocalResult) : Bool := decide (r.state.network = b!"unixgram")

end Syslog5424.Net
