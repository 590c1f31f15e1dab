import Verif.Model.Parse
/-!
# Model of the tokenizer of a connection (`listener.go:101-161`)

The read buffer is modelled with its memory: `buffer` is the suffix, from `off`, of an array of 64 KiB, and a
message that was delivered is a view of the array it was decoded in. Every slice the tokenizer makes ends
where its array ends (Go's `a[i:j]` keeps the capacity), so a message `m` starts `cap(m.buffer)` bytes before
the end of its array.

Simplifications: sending on the pipeline and on the error channel never blocks here (`Model/Receiver.lean` has
the channels); the counters `count` and `total` have no effect and are left out.
-/
namespace Syslog5424.Tok

/-- `readBuffer` (listener.go:45). -/
def readBuffer : Nat := 65536

/-- A value sent on the pipeline (`messageErrorPair`, listener.go:39-42), with the array its bytes are in:
the `arr`-th one the tokenizer allocated. -/
structure Delivered where
  arr : Nat
  msg : MsgImm
  err : Option Err

/-- The error of `conn.Read`. -/
inductive ReadErr where
  | none
  | eof
  | other
deriving DecidableEq

/-- One call of `conn.Read(p)`: the bytes read, bytes the reader used as scratch space behind them (an
`io.Reader` may use all of `p`), and the error. -/
structure Read where
  data : Bytes
  scratch : Bytes := []
  err : ReadErr := .none

/-- The variables of `tokenize` (listener.go:104-109): the arrays that are not written any more, the current
array, the start of `buffer` in it, `done`; what was sent on the pipeline and the number of errors sent on the
error channel. -/
structure State where
  old : List Bytes
  arr : Bytes
  off : Nat
  done : Nat
  out : List Delivered
  errs : Nat

/-- listener.go:106-109 -/
def init : State := ⟨[], List.replicate readBuffer 0, 0, 0, [], 0⟩

/-- `len(buffer[done:])`, the length of the slice given to `Read` (listener.go:111). -/
def State.room (s : State) : Nat := s.arr.length - s.off - s.done

/-- `a[i:i+len(bs)] = bs` -/
def overwrite (a : Bytes) (i : Nat) (bs : Bytes) : Bytes := a.take i ++ bs ++ a.drop (i + bs.length)

/-- The decoding loop (listener.go:130-145): the remaining `data`, and the pairs sent on the pipeline. The
number bounds the iterations. -/
def parseLoop (t : Transport) (eof : Bool) : Nat → Slice → List (MsgImm × Option Err) →
    Out (Slice × List (MsgImm × Option Err))
  | 0, _, _ => .hang
  | fuel + 1, data, out => do
    let (msg, rest, parseErr) ← parse (some data) (some t) eof
    match rest with
    | none => return (data, out)
    | some r =>
      if r.len = 0 then return (r, out ++ [(msg, parseErr)])
      else parseLoop t eof fuel r (out ++ [(msg, parseErr)])

/-- listener.go:147-154: `buffer` moves to the beginning of what is not decoded; when it gets small it is
copied to a new array. -/
def advance (s : State) (lenRead done : Nat) (out : List Delivered) : State :=
  let off := s.off + (lenRead - done)
  let buffer := s.arr.drop off
  if buffer.length < 500 then
    { s with old := s.old ++ [s.arr], arr := buffer ++ List.replicate (readBuffer - buffer.length) 0,
             off := 0, done := done, out := out }
  else { s with off := off, done := done, out := out }

/-- One iteration of the loop of `tokenize` (listener.go:110-160); the boolean tells whether the loop goes
on. -/
def step (t : Transport) (s : State) (r : Read) : Out (Bool × State) :=
  let s := { s with arr := overwrite s.arr (s.off + s.done) (r.data ++ r.scratch),
                    errs := if r.err = .other then s.errs + 1 else s.errs }
  let eof : Bool := decide (r.err = .eof)
  if r.data.length = 0 ∧ eof = true then .ret (false, s)
  else if r.data.length = 0 then .ret (true, s)
  else do
    let lenRead := r.data.length + s.done
    let data ← (Slice.exact (s.arr.drop s.off)).sub 0 (lenRead : Nat)
    let (data, ds) ← parseLoop t eof (data.len + 1) data []
    let out := s.out ++ ds.map fun d => ⟨s.old.length, d.1, d.2⟩
    return (!eof, advance s lenRead data.len out)

/-- `Read` never returns, nor touches, more than it was given. -/
def Read.Fits (r : Read) (s : State) : Prop := r.data.length + r.scratch.length ≤ s.room

instance (r : Read) (s : State) : Decidable (r.Fits s) := inferInstanceAs (Decidable (_ ≤ _))

/-- `Run t s reads o`: from the state `s`, the calls of `Read` can be `reads`, in order, and the outcome after
them is `o`: the loop goes on (`true`), returned (`false`), or panicked. -/
inductive Run (t : Transport) : State → List Read → Out (Bool × State) → Prop
  | nil {s : State} : Run t s [] (.ret (true, s))
  | cons {s s' : State} {r : Read} {rs : List Read} {o : Out (Bool × State)} :
      r.Fits s → step t s r = .ret (true, s') → Run t s' rs o → Run t s (r :: rs) o
  | last {s : State} {r : Read} {o : Out (Bool × State)} :
      r.Fits s → step t s r = o → (∀ s', o ≠ .ret (true, s')) → Run t s [r] o

/-- The bytes of a delivered message as they are in the memory of state `s`. -/
def State.bytesOf (s : State) (d : Delivered) : Bytes :=
  let a := ((s.old ++ [s.arr])[d.arr]?).getD []
  (a.drop (a.length - d.msg.buffer.cap)).take d.msg.buffer.len

end Syslog5424.Tok
