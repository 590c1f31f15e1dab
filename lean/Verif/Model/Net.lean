import Verif.Model.Transport
/-!
# Model of the connectors, the dialer and the listeners

`dialer.go`, `connector-fd.go`, `connector-invalid.go`, `connector-local.go`, `connector-local_unix.go`,
`connector-tcp.go`, `listener-guess.go`, `listener-tcp.go`, `listener-unix.go`, `listener-unixdgram.go`.

The operating system (what `Dial`, `Listen`, the resolver, `Stat` and `Remove` answer) is a parameter. Calls that only
tune a socket (`SetReadBuffer`, `CloseRead`, `SetNoDelay`, ...) and whose result is ignored are left out, except that a
method call on a nil `*net.TCPConn` panics.
-/
namespace Syslog5424.Net

/-! ## Connectors and the dialer -/

/-- What `StdioConnector`, `LocalConnector` and `TCPConnector` return. -/
inductive Connector where
  /-- `InvalidConnector` (connector-invalid.go:5-7,11-13) -/
  | invalid (e : Err)
  /-- connector-fd.go:15-17 -/
  | stderr
  /-- connector-fd.go:20-22 -/
  | stdout
  /-- `localConn` (connector-local.go:8-10) -/
  | loc (network address : Bytes)
  /-- `tcpConn` (connector-tcp.go:11-13) -/
  | tcp (network address : Bytes)
deriving Repr, DecidableEq

/-- `StdioConnector` (connector-fd.go:8-28). -/
def stdioConnector (addr : Bytes) : Connector :=
  if addr = [] then .invalid .emptyNetworkAddress
  else if addr = b!"stderr:" then .stderr
  else if addr = b!"stdout:" then .stdout
  else .invalid .invalidAddress

/-- `LocalConnector` (connector-local.go:19-21). -/
def localConnector (network address : Bytes) : Connector := .loc network address

/-- `TCPConnector` (connector-tcp.go:21-32). -/
def tcpConnector (network address : Bytes) : Connector :=
  if network = [] ∨ address = [] then .invalid .emptyNetworkAddress
  else if network ≠ b!"tcp" ∧ network ≠ b!"tcp4" ∧ network ≠ b!"tcp6" then .invalid .invalidNetwork
  else .tcp network address

/-- What `Dial` passes to `NewSender`: the connector, the transport, and the period of the ticker (`none`: it never
ticks). -/
structure Dialed where
  connector : Connector
  transport : Transport
  period : Option Int
deriving Repr, DecidableEq

/-- `Dialer.Dial` (dialer.go:32-80); durations are in nanoseconds. The test `c == nil` (dialer.go:74-76) never succeeds:
none of the connectors is nil. -/
def dial (flushDelay : Int) (network address : Bytes) (t : Option Transport) : Except Err Dialed :=
  let period := if flushDelay ≤ 1000000 then none else some flushDelay
  if network = b!"stdio" then .ok ⟨stdioConnector address, t.getD .lfEnded, period⟩
  else if network = b!"local" then .ok ⟨localConnector [] address, t.getD .zeroEnded, period⟩
  else if network = b!"unix" ∨ network = b!"unixgram" then .ok ⟨localConnector network address, t.getD .zeroEnded, period⟩
  else if network = b!"tcp" ∨ network = b!"tcp6" ∨ network = b!"tcp4" then .ok ⟨tcpConnector network address, t.getD .lfEnded, period⟩
  else .error .unknownNetwork

/-- `Dial` (dialer.go:20-24): 500 ms. -/
def dialDefault (network address : Bytes) : Except Err Dialed := dial 500000000 network address none

/-! ## The local connector -/

/-- The fields of a `localConn` (connector-local.go:8-10). -/
structure Local where
  network : Bytes
  address : Bytes
deriving Repr, DecidableEq

/-- connector-local_unix.go:11 -/
def logTypes : List Bytes := [b!"unix", b!"unixgram"]
/-- connector-local_unix.go:12 -/
def logPaths : List Bytes := [b!"/var/run/syslog", b!"/var/run/log", b!"/dev/log"]

/-- The loops of `osGuessConnnector` (connector-local_unix.go:15-26,29-43): the pairs are dialed in order until one
answers. The result is that pair (if any), and the pairs that were dialed. `ResolveUnixAddr` does not fail for these
networks. -/
def tryAll (accepts : Bytes → Bytes → Bool) : List (Bytes × Bytes) → Option (Bytes × Bytes) × List (Bytes × Bytes)
  | [] => (none, [])
  | p :: r => if accepts p.1 p.2 then (some p, [p]) else
    let x := tryAll accepts r
    (x.1, p :: x.2)

/-- The result of a call of `Connect`: the connection (network and path it goes to) or an error, the new fields, and
what was dialed. -/
structure LocalResult where
  conn : Except Err (Bytes × Bytes)
  state : Local
  dialed : List (Bytes × Bytes)
deriving DecidableEq

/-- `localConn.Connect` (connector-local.go:24-46) with `osGuessConnnector` (connector-local_unix.go:10-44), the variant
for Unix systems; on the others (connector-local_other.go:10-12) it always reports `noConnection`. The connection of the
`unixgram` network is wrapped in a type whose `Write` and `Close` (connector-local.go:48-54) are those of the
connection. `dialErr` is the error of a failing `net.DialUnix`. -/
def Local.connect (accepts : Bytes → Bytes → Bool) (dialErr : Err) (c : Local) : LocalResult :=
  if c.address ≠ [] ∧ c.network ≠ [] then
    ⟨if accepts c.network c.address then .ok (c.network, c.address) else .error dialErr, c, [(c.network, c.address)]⟩
  else if c.address ≠ [] then
    let r := tryAll accepts (logTypes.map fun t => (t, c.address))
    match r.1 with
    | some p => ⟨.ok p, { c with network := p.1 }, r.2⟩
    | none => ⟨.error .noConnection, c, r.2⟩
  else
    let r := tryAll accepts (logTypes.flatMap fun t => logPaths.map fun a => (t, a))
    match r.1 with
    | some p => ⟨.ok p, ⟨p.1, p.2⟩, r.2⟩
    | none => ⟨.error .noConnection, c, r.2⟩

/-! ## The TCP connector -/

/-- An address of the resolver: whether it is an IPv4 address (`To4() != nil`), and its value. -/
structure IP where
  v4 : Bool
  addr : Nat
deriving Repr, DecidableEq

/-- connector-tcp.go:55-71 -/
def selectIPs (network : Bytes) (raw : List IP) : List IP :=
  if network = b!"tcp4" then raw.filter fun ip => ip.v4
  else if network = b!"tcp6" then raw.filter fun ip => !ip.v4
  else raw

/-- The loop of `Connect` (connector-tcp.go:73-80): `contcp` and `err` after it (`none` is nil), and what was dialed.
`dialTCP ip port = none` is a success. -/
def dialLoop (dialTCP : IP → Int → Option Err) (port : Int) : List IP → Option IP → Option Err → Option IP × Option Err × List IP
  | [], c, e => (c, e, [])
  | ip :: r, _, _ =>
    match dialTCP ip port with
    | none => (some ip, none, [ip])
    | some e =>
      let x := dialLoop dialTCP port r none (some e)
      (x.1, x.2.1, ip :: x.2.2)

/-- `tcpConn.Connect` (connector-tcp.go:34-93): the address it is connected to, or an error, and what was dialed.
`hostPort` is the answer of `net.SplitHostPort`, `resolve` the resolver; the port is read with `strconv.Atoi`. -/
def tcpConnect (network : Bytes) (hostPort : Except Err (Bytes × Bytes)) (resolve : Bytes → Except Err (List IP))
    (dialTCP : IP → Int → Option Err) : Out (Except Err IP × List IP) :=
  match hostPort with
  | .error e => .ret (.error e, [])
  | .ok (host, portStr) =>
    match (if portStr = [] then some 514 else atoi portStr) with
    | none => .ret (.error .badFormat, [])
    | some port =>
      match resolve host with
      | .error e => .ret (.error e, [])
      | .ok raw =>
        let r := dialLoop dialTCP port (selectIPs network raw) none none
        match r.2.1 with
        | some e => .ret (.error e, r.2.2)
        | none =>
          -- connector-tcp.go:85
          match r.1 with
          | none => .panic
          | some ip => .ret (.ok ip, r.2.2)

/-! ## Listeners -/

/-- Which listener `GuessListener` (listener-guess.go:4-16) makes; `TCPListener` is called with the network. -/
inductive ListenerKind where
  | tcp (network : Bytes)
  | unix
  | unixgram
deriving Repr, DecidableEq

/-- listener-guess.go:4-16 -/
def guessListener (network : Bytes) : Except Err ListenerKind :=
  if network = b!"tcp" ∨ network = b!"tcp4" ∨ network = b!"tcp6" then .ok (.tcp network)
  else if network = b!"unix" then .ok .unix
  else if network = b!"unixgram" then .ok .unixgram
  else .error .invalidNetwork

/-- `TCPListener` (listener-tcp.go:14-33): `resolve` and `listen` are the errors (if any) of `ResolveTCPAddr` and
`ListenTCP`. -/
def tcpListener (network : Bytes) (resolve listen : Option Err) : Except Err Unit :=
  if network ≠ b!"tcp" ∧ network ≠ b!"tcp4" ∧ network ≠ b!"tcp6" then .error .invalidNetwork
  else match resolve with
    | some e => .error e
    | none => match listen with
      | some e => .error e
      | none => .ok ()

/-- The outcome of `ListenUnix`, as far as the loop looks at it. -/
inductive Bind where
  | ok
  /-- "bind: address already in use" -/
  | inUse
  | error (e : Err)
deriving Repr, DecidableEq

/-- The error "address already in use". -/
def errInUse : Err := .other 98

/-- The loop of `UnixListener` and `UnixgramListener` (listener-unix.go:25-46, listener-unixdgram.go:36-54) in an
environment of type `E` in which listening, `os.Stat(address)` and `os.Remove(address)` have an effect. The number bounds
the iterations. -/
def listenLoop {E : Type} (listen : E → Bind × E) (stat : E → Bool × E) (remove : E → E) : Nat → E → Out (Except Err Unit × E)
  | 0, _ => .hang
  | fuel + 1, env =>
    match listen env with
    | (.ok, env) => .ret (.ok (), env)
    | (.error e, env) => .ret (.error e, env)
    | (.inUse, env) =>
      match stat env with
      | (false, env) => .ret (.error errInUse, env)
      | (true, env) => listenLoop listen stat remove fuel (remove env)

/-! ## The datagram listener -/

/-- `unixgramReceiver` (listener-unixdgram.go:10-14): `accepted`, and whether the channel `end` is closed. -/
structure Gram where
  accepted : Bool
  ended : Bool
deriving Repr, DecidableEq

/-- What a call of `Accept` does now. -/
inductive AcceptResult where
  | conn
  | blocks
  | error
deriving Repr, DecidableEq

/-- `unixgramReceiver.Accept` (listener-unixdgram.go:69-83). -/
def Gram.accept (g : Gram) : AcceptResult × Gram :=
  if g.accepted then (if g.ended then .error else .blocks, g) else (.conn, { g with accepted := true })

/-- `unixgramReceiver.Close` (listener-unixdgram.go:63-66): closing a closed channel panics. -/
def Gram.close (g : Gram) : Out Gram := if g.ended then .panic else .ret { g with ended := true }

/-- What `conn.ReadFrom` answers: a datagram, or an error (Go returns no bytes with an error). -/
inductive Recv where
  | datagram (d : Bytes)
  | error
deriving Repr, DecidableEq

/-- `fakeConn.Read` (listener-unixdgram.go:93-116; `Close`, listener-unixdgram.go:89-91, does nothing, `RemoteAddr`,
listener-unixdgram.go:85-87, has no effect) into a slice of `n` bytes, with the buffer `buff`; `recv` is what
`ReadFrom` answers if it is called. The result: the bytes read, whether there is an error, the new buffer. What does not
fit the 64 KiB of `rbuff` is cut off by the system. -/
def fakeRead (buff : Bytes) (n : Nat) (recv : Recv) : Bytes × Bool × Bytes :=
  let go (buff : Bytes) : Bytes × Bool × Bytes :=
    if n ≤ buff.length then (buff.take n, false, buff.drop n) else (buff, false, [])
  if buff.length = 0 then
    match recv with
    | .error => ([], true, buff)
    | .datagram d => go (d.take 65536)
  else go buff

/-- A sequence of calls of `Read`, given the sizes of their slices and what `ReadFrom` will answer, in order; it stops
when `ReadFrom` would block. The results: the bytes and whether there was an error, for each call; the buffer after them;
what was not taken from the system yet. -/
def fakeReads : Bytes → List Recv → List Nat → List (Bytes × Bool) × Bytes × List Recv
  | buff, q, [] => ([], buff, q)
  | buff, q, n :: r =>
    if buff.length = 0 then
      match q with
      | [] => ([], buff, [])
      | recv :: q =>
        let x := fakeRead buff n recv
        let y := fakeReads x.2.2 q r
        ((x.1, x.2.1) :: y.1, y.2)
    else
      let x := fakeRead buff n .error
      let y := fakeReads x.2.2 q r
      ((x.1, x.2.1) :: y.1, y.2)

end Syslog5424.Net
