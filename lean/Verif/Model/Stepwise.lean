import Verif.Model.Receiver
/-!
# Model of `listener.go`: the `Receiver`, message by message

In `Model/Receiver.lean` the decoding of everything that one `Read` brought is one event, after which the pairs are sent
one by one. Here, as in the code (listener.go:130-145), `Parse` is called for one message, the pair is sent on the
pipeline, which may wait, and only then `Parse` is called for the next one.
-/
namespace Syslog5424.Recv

/-- The variables of the loop of `tokenize` (listener.go:110-145) while it decodes: `data`, `eof`, `lenRead`, and the pair
to be sent, if `Parse` returned one that was not sent yet. -/
structure Work where
  data : Slice
  eof : Bool
  lenRead : Nat
  sending : Option Tok.Delivered

/-- A connection and its goroutine `tokenize` (listener.go:101-161): its variables, what it is decoding, whether a read
error is still to be sent, whether the loop goes on, whether the deferred `conn.Close()` was run. -/
structure SConn where
  tok : Tok.State
  work : Option Work
  errPending : Bool
  running : Bool
  closed : Bool

/-- A connection just accepted (listener.go:95). -/
def SConn.new : SConn := ⟨Tok.init, none, false, true, false⟩

/-- The state, as `State`. -/
structure SState where
  pc : PC
  pipeline : List (Nat × Tok.Delivered)
  pipelineClosed : Bool
  errs : Nat
  ended : Bool
  conns : List SConn
  nilConns : Nat
  got : List (Nat × Tok.Delivered)
  crashed : Bool

/-- `NewReceiver` (listener.go:53-78). -/
def sinit : SState := ⟨.select, [], false, 0, false, [], 0, [], false⟩

/-- The events of `Model/Receiver.lean`, and a call of `Parse` by the goroutine of connection `i`. -/
inductive SEvent where
  | std (e : Event)
  | decode (i : Nat)

/-- Replace connection `i`. -/
def SState.setConn (s : SState) (i : Nat) (c : SConn) : SState := { s with conns := s.conns.set i c }

/-- listener.go:147-158, the end of a pass: what is not decoded is kept; after the end of file the loop returns. -/
def SConn.finish (c : SConn) (w : Work) : SConn :=
  { c with tok := Tok.advance c.tok w.lenRead w.data.len c.tok.out, work := none, running := !w.eof }

/-- listener.go:142-145: the pair was sent. -/
def SConn.sent (c : SConn) (w : Work) : SConn :=
  if w.data.len = 0 then c.finish w else { c with work := some { w with sending := none } }

/-- listener.go:111-130: `Read` returned `r`. -/
def SConn.load (c : SConn) (r : Tok.Read) : Out SConn :=
  let tok := { c.tok with arr := Tok.overwrite c.tok.arr (c.tok.off + c.tok.done) (r.data ++ r.scratch),
                          errs := if r.err = .other then c.tok.errs + 1 else c.tok.errs }
  let c := { c with tok := tok, errPending := decide (r.err = .other) }
  let eof : Bool := decide (r.err = .eof)
  if r.data.length = 0 ∧ eof = true then .ret { c with running := false }
  else if r.data.length = 0 then .ret c
  else do
    let lenRead := r.data.length + tok.done
    let data ← (Slice.exact (tok.arr.drop tok.off)).sub 0 (lenRead : Nat)
    return { c with work := some ⟨data, eof, lenRead, none⟩ }

/-- One event, for the queue length `lenQueue`. -/
def sstep (t : Transport) (lenQueue : Nat) (s : SState) (e : SEvent) : Option SState :=
  if s.crashed then none else
  match e with
  -- listener.go:131-139
  | .decode i =>
    match s.conns[i]? with
    | none => none
    | some c =>
      match c.work with
      | none => none
      | some w =>
        if c.errPending ∨ w.sending.isSome then none
        else match parse (some w.data) (some t) w.eof with
          | .ret (_, none, _) => some (s.setConn i (c.finish w))
          | .ret (msg, some rest, parseErr) =>
            let d : Tok.Delivered := ⟨c.tok.old.length, msg, parseErr⟩
            some (s.setConn i { c with tok := { c.tok with out := c.tok.out ++ [d] },
                                       work := some { w with data := rest, sending := some d } })
          | .panic => some { s with crashed := true }
          | .hang => none
  -- listener.go:85-90
  | .std .tau =>
    match s.pc with
    | .select => some { s with pc := if s.ended then .closePipe else .accept }
    -- listener.go:91-92,95
    | .errSend => if s.errs < errCap then some { s with errs := s.errs + 1, nilConns := s.nilConns + 1, pc := .select } else none
    -- listener.go:82
    | .closePipe => some { s with pipelineClosed := true, pc := .closeListener }
    -- listener.go:81
    | .closeListener => some { s with pc := .done }
    | _ => none
  -- listener.go:90,95
  | .std .acceptOk => if s.pc = .accept then some { s with conns := s.conns ++ [SConn.new], pc := .select } else none
  -- listener.go:90-91
  | .std .acceptErr => if s.pc = .accept then some { s with pc := .errSend } else none
  -- listener.go:101-102
  | .std .nilStart => if 0 < s.nilConns then some { s with crashed := true } else none
  -- listener.go:111-130
  | .std (.read i r) =>
    match s.conns[i]? with
    | none => none
    | some c =>
      if c.running ∧ c.work.isNone ∧ ¬ c.errPending ∧ r.Fits c.tok then
        match c.load r with
        | .ret c => some (s.setConn i c)
        | .panic => some { s with crashed := true }
        | .hang => none
      else none
  -- listener.go:119-121
  | .std (.sendErr i) =>
    match s.conns[i]? with
    | none => none
    | some c => if c.errPending ∧ s.errs < errCap then some ({ s with errs := s.errs + 1 }.setConn i { c with errPending := false }) else none
  -- listener.go:142: sending on a closed channel panics
  | .std (.sendMsg i) =>
    match s.conns[i]? with
    | none => none
    | some c =>
      match c.work with
      | some ⟨data, eof, lenRead, some d⟩ =>
        if c.errPending then none
        else if s.pipelineClosed then some { s with crashed := true }
        else if s.pipeline.length < lenQueue then
          some ({ s with pipeline := s.pipeline ++ [(i, d)] }.setConn i (c.sent ⟨data, eof, lenRead, some d⟩))
        else none
      | _ => none
  -- listener.go:102, when the loop has returned
  | .std (.close i) =>
    match s.conns[i]? with
    | none => none
    | some c =>
      if ¬ c.running ∧ c.work.isNone ∧ ¬ c.errPending ∧ ¬ c.closed then some (s.setConn i { c with closed := true })
      else none
  -- listener.go:164-168
  | .std .recv =>
    match s.pipeline with
    | [] => none
    | x :: r => some { s with pipeline := r, got := s.got ++ [x] }
  -- listener.go:142,165
  | .std (.handoff i) =>
    match s.conns[i]? with
    | none => none
    | some c =>
      match c.work with
      | some ⟨data, eof, lenRead, some d⟩ =>
        if c.errPending ∨ s.pipelineClosed ∨ s.pipeline.length ≠ 0 then none
        else some ({ s with got := s.got ++ [(i, d)] }.setConn i (c.sent ⟨data, eof, lenRead, some d⟩))
      | _ => none
  -- listener.go:165
  | .std .recvClosed => if s.pipelineClosed ∧ s.pipeline.length = 0 then some s else none
  -- listener.go:171-173
  | .std .endCall => if s.ended then some { s with crashed := true } else some { s with ended := true }
  | .std .recvErr => if 0 < s.errs then some { s with errs := s.errs - 1 } else none

/-- A history. -/
def srun (t : Transport) (lenQueue : Nat) : SState → List SEvent → Option SState
  | s, [] => some s
  | s, e :: r => (sstep t lenQueue s e).bind fun s' => srun t lenQueue s' r

end Syslog5424.Recv
