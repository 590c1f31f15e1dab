import Verif.Model.Sender
/-!
# Model of `connector.go`: which goroutine touches the queue of a sender, and what it synchronises with

Every event of a history of a sender (`Verif/Model/Sender.lean`) is an operation of one goroutine: `runQueue`, or a
goroutine of the user. An operation may take or release the lock, read or write the queue (`*c.queue`: the slice and what it
points to, taken as one memory location), close `endAsked`, notice that it is closed, or close `endCompleted`.

`c.output` is touched by `runQueue` only (connector.go:72-74,85,94,99,115), the other fields are written once, before
`runQueue` is started (connector.go:54-66): the queue is the only shared memory.
-/
namespace Syslog5424.Sender

/-- An operation; `goroutine` is `none` for `runQueue`. An operation that takes and releases the lock does what it does to
the queue in between. -/
structure Op where
  goroutine : Option Nat
  acquires : Bool := false
  releases : Bool := false
  reads : Bool := false
  writes : Bool := false
  closesEnd : Bool := false
  seesEnd : Bool := false
  completes : Bool := false
deriving Repr, DecidableEq

/-- What the event `e`, of goroutine `g` when it is a call of the user, does in the state `s`. -/
def opOf (s : State) (g : Nat) (e : Event) : Op :=
  match e with
  -- connector.go:137-144: the lock is taken for a message that can be marshalled only
  | .send m => match m.marshal with
    | .ret (.ok _) => { goroutine := some g, acquires := true, releases := true, reads := true, writes := true }
    | _ => { goroutine := some g }
  -- connector.go:151; the second time it panics
  | .endCall => { goroutine := some g, closesEnd := !s.endAsked }
  | .recvErr _ => { goroutine := some g }
  | .tick => { goroutine := none }
  -- connector.go:125
  | .seeEnd => { goroutine := none, seesEnd := true }
  | .connect _ => { goroutine := none }
  -- connector.go:85: a `Write` of a buffer of the queue; an error makes `WriteTo` drop what was written
  | .write _ r => { goroutine := none, reads := true, writes := r.isSome }
  | .tau => match s.pc with
    -- connector.go:81
    | .lock _ => { goroutine := none, acquires := true }
    -- connector.go:84
    | .loop _ => { goroutine := none, reads := true }
    -- connector.go:85: the end of `WriteTo` drops what was written
    | .write _ _ _ => { goroutine := none, reads := true, writes := true }
    -- connector.go:104-106 then 82. After an error lines 104-106 are skipped: this asks for more than the code does.
    | .unlock _ => { goroutine := none, reads := true, writes := true, releases := true }
    -- connector.go:112: `len(*c.queue)`, without the lock
    | .drain => { goroutine := none, reads := true }
    -- connector.go:116
    | .closeDone => { goroutine := none, completes := true }
    | _ => { goroutine := none }

/-- The operations of a history; every event comes with the goroutine that makes it (it does not matter for the events of
`runQueue`). -/
def ops (t : Transport) : State → List (Nat × Event) → List Op
  | _, [] => []
  | s, (g, e) :: r => opOf s g e :: match step t s e with
    | some s' => ops t s' r
    | none => []

end Syslog5424.Sender
