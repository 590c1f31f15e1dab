import Verif.Model.Tokenizer
import Verif.Model.Sender
/-!
# Model of `Parse`, of the tokenizer and of `Send` with a `Transport` written by the user

`Transport` is an exported interface (transport.go:22-34): a program can give its own implementation to `Parse`, to a
sender and to a receiver. The functions of this file are those of `Model/Parse.lean`, `Model/Tokenizer.lean` and
`Model/Sender.lean` with the calls of the interface left open; `Props/UserTransport.lean` proves that for the three
built-in transports they are the same functions.

Simplifications: the methods of the user depend on their arguments only, do not write to the buffer they are given (they
may return slices of it, or others) and may panic or not return (`Out`); `String` is not used by the code.
-/
namespace Syslog5424

/-- An implementation of `Transport` (transport.go:22-34). -/
structure UserTransport where
  encode : Bytes → Bytes
  prefixStrip : Option Slice → Bool → Out Strip
  suffixStrip : Option Slice → Bool → Out Strip

/-- The built-in transports (transport.go:37-46) as implementations of the interface. -/
def Transport.toUser (t : Transport) : UserTransport := ⟨t.encode, t.prefixStrip, t.suffixStrip⟩

namespace UserTransport

/-- `parseReturn` (message-immutable.go:257-285) with a non-nil transport. -/
def parseReturn (u : UserTransport) (msg : MsgImm) (atEOF : Bool) (data : Slice) (rest : Option Slice) : Out ParseRes :=
  match rest with
  | some r => .ret (msg, some r, none)
  | none => do
    let d ← data.from_ msg.text
    let (data, rest, mainErr) ← u.suffixStrip (some d) atEOF
    if data = none ∧ rest = none ∧ mainErr = none then
      return (MsgImm.zero, none, none)
    else
      let stop : Int := msg.text + (Slice.ofNil data).len
      if (msg.buffer.len : Int) > stop then do
        let b ← msg.buffer.sub 0 stop
        return ({ msg with buffer := b }, rest, mainErr)
      else return (msg, rest, mainErr)

/-- The structured data loop of `Parse` (message-immutable.go:207-244). -/
def sdLoop (u : UserTransport) (atEOF : Bool) (rest : Option Slice)
    (mainErr : Option Err) (data : Slice) : Nat → Nat → Nat → List Int → Out ParseRes
  | 0, _, _, _ => .hang
  | fuel + 1, t, start, index => do
    let d ← data.from_ t
    if d.len = 0 then return (MsgImm.zero, rest, dispatchError mainErr .impossible)
    else
      match searchNextSep d RBRK with
      | .ok stop => do
        let c ← data.at_ ((t + stop : Nat) - 1 : Int)
        if c = BSL then sdLoop u atEOF rest mainErr data fuel (t + stop + 1) start index
        else if c = DQ then
          let index := index ++ [((t + stop + 1 : Nat) : Int)]
          let start := t + stop + 1
          if data.len ≤ start then
            u.parseReturn ⟨data, index, -1⟩ atEOF data rest
          else sdLoop u atEOF rest mainErr data fuel start start index
        else
          return (MsgImm.zero, rest, dispatchError mainErr (.parseError (t + stop - 1) "\\\\ or \" expected"))
      | .error .posNotFound =>
        u.parseReturn ⟨data, index, ((start + 1 : Nat) : Int)⟩ atEOF data rest
      | .error e => return (MsgImm.zero, rest, dispatchError mainErr e)

/-- `Parse` after the prefix was stripped (message-immutable.go:153-244). -/
def parseBody (u : UserTransport) (data : Slice) (rest : Option Slice) (mainErr : Option Err) (atEOF : Bool) :
    Out ParseRes := do
  let r ← fieldLoop data (if data.len > 0 then 6 else 0) 0 []
  match r with
  | .error e => return (MsgImm.zero, rest, dispatchError mainErr e)
  | .ok (start, index) => do
    let d ← data.from_ start
    if d.len = 0 then
      return (MsgImm.zero, rest, dispatchError mainErr (.parseError start "empty field expected"))
    else if d.len = 1 then do
      let c ← data.at_ start
      if c ≠ DASH then
        return (MsgImm.zero, rest, dispatchError mainErr (.parseError start "empty field expected"))
      else
        u.parseReturn ⟨data, index ++ [((start + 2 : Nat) : Int)], -1⟩ atEOF data rest
    else
      match searchNextSep d SP with
      | .error e => return (MsgImm.zero, rest, dispatchError mainErr e)
      | .ok stop =>
        if stop = 1 then do
          let c ← data.at_ start
          if c ≠ DASH then
            return (MsgImm.zero, rest, dispatchError mainErr (.parseError start "empty structured data expected"))
          else
            u.parseReturn ⟨data, index ++ [((start + 1 : Nat) : Int)], ((start + 2 : Nat) : Int)⟩ atEOF data rest
        else u.sdLoop atEOF rest mainErr data (data.len + 1) start start index

/-- `Parse` (message-immutable.go:141-245) with this transport. -/
def parse (u : UserTransport) (data : Option Slice) (atEOF : Bool) : Out ParseRes := do
  let (data, rest, mainErr) ← u.prefixStrip data atEOF
  if data = none ∧ rest = none ∧ mainErr = none then return (MsgImm.zero, none, none)
  else u.parseBody (Slice.ofNil data) rest mainErr atEOF

/-- The decoding loop of the tokenizer (listener.go:130-145). The number bounds the iterations: it is enough when every
rest is shorter than the data. -/
def parseLoop (u : UserTransport) (eof : Bool) : Nat → Slice → List (MsgImm × Option Err) →
    Out (Slice × List (MsgImm × Option Err))
  | 0, _, _ => .hang
  | fuel + 1, data, out => do
    let (msg, rest, parseErr) ← u.parse (some data) eof
    match rest with
    | none => return (data, out)
    | some r =>
      if r.len = 0 then return (r, out ++ [(msg, parseErr)])
      else parseLoop u eof fuel r (out ++ [(msg, parseErr)])

/-- One iteration of the loop of `tokenize` (listener.go:110-160). -/
def step (u : UserTransport) (s : Tok.State) (r : Tok.Read) : Out (Bool × Tok.State) :=
  let s := { s with arr := Tok.overwrite s.arr (s.off + s.done) (r.data ++ r.scratch),
                    errs := if r.err = .other then s.errs + 1 else s.errs }
  let eof : Bool := decide (r.err = .eof)
  if r.data.length = 0 ∧ eof = true then .ret (false, s)
  else if r.data.length = 0 then .ret (true, s)
  else do
    let lenRead := r.data.length + s.done
    let data ← (Slice.exact (s.arr.drop s.off)).sub 0 (lenRead : Nat)
    let (data, ds) ← u.parseLoop eof (data.len + 1) data []
    let out := s.out ++ ds.map fun d => ⟨s.old.length, d.1, d.2⟩
    return (!eof, Tok.advance s lenRead data.len out)

/-- The calls of `Read` of one connection and what becomes of the tokenizer (listener.go:110-160), as `Tok.Run`. -/
inductive Run (u : UserTransport) : Tok.State → List Tok.Read → Out (Bool × Tok.State) → Prop
  | nil {s : Tok.State} : Run u s [] (.ret (true, s))
  | cons {s s' : Tok.State} {r : Tok.Read} {rs : List Tok.Read} {o : Out (Bool × Tok.State)} :
      r.Fits s → u.step s r = .ret (true, s') → Run u s' rs o → Run u s (r :: rs) o
  | last {s : Tok.State} {r : Tok.Read} {o : Out (Bool × Tok.State)} :
      r.Fits s → u.step s r = o → (∀ s', o ≠ .ret (true, s')) → Run u s [r] o

/-- One event of a sender (connector.go): the transport is used by `Send` only (connector.go:134-147); the other events
are those of `Sender.step`, whatever the transport. -/
def senderStep (u : UserTransport) (s : Sender.State) (e : Sender.Event) : Option Sender.State :=
  match e with
  | .send m =>
    if s.crashed then none else
    match m.marshal with
    | .ret (.ok b) => if s.locked then none else some { s with queue := s.queue ++ [u.encode b] }
    | .ret (.error _) => some s
    | .panic => some { s with crashed := true }
    | .hang => none
  | e => Sender.step .lfEnded s e

/-- A history of a sender with this transport. -/
def senderRun (u : UserTransport) : Sender.State → List Sender.Event → Option Sender.State
  | s, [] => some s
  | s, e :: r => (u.senderStep s e).bind fun s' => u.senderRun s' r

end UserTransport
end Syslog5424
