import Verif.Model.Tokenizer
/-!
# Model of `listener.go` and `message-immutable.go`: which memory is read and written when

A message that was delivered is a window of an array of the tokenizer (`Model/Tokenizer.lean`): what its accessors see
is what is in that array when they are called. `Read` writes to the array while the user may call the accessors.
-/
namespace Syslog5424.Tok

/-- The `i`-th array the tokenizer allocated (listener.go:109,152). -/
def State.array (s : State) (i : Nat) : Bytes := ((s.old ++ [s.arr])[i]?).getD []

/-- Where a delivered message begins in its array. -/
def State.startOf (s : State) (d : Delivered) : Nat := (s.array d.arr).length - d.msg.buffer.cap

/-- A delivered message in the memory of state `s`: the same indexes (they are in a slice of their own,
message-immutable.go:153-157), and the bytes that are in the array now, up to its end. -/
def State.msgAt (s : State) (d : Delivered) : MsgImm :=
  let m := (s.array d.arr).drop (s.startOf d)
  { d.msg with buffer := ⟨m.take d.msg.buffer.len, m.drop d.msg.buffer.len⟩ }

/-- A place in memory: a byte of the array that the tokenizer allocated as number `arr`. -/
structure Place where
  arr : Nat
  pos : Nat

/-- The bytes that a call of `Read` writes (listener.go:111): its result and its scratch space, from the end of what is
not decoded. Only the current array is written. -/
def Writes (s : State) (r : Read) (p : Place) : Prop :=
  p.arr = s.old.length ∧ s.off + s.done ≤ p.pos ∧ p.pos < s.off + s.done + (r.data ++ r.scratch).length

/-- The end of what `tqdef.Found` reads when it is given the bytes `start` to `stop` of a buffer (tq.go:61-66): the bytes
it is given; and if they are between brackets, eleven bytes behind the first one, whatever the length. -/
def tqEnd (buffer : Bytes) (start stop : Nat) : Nat :=
  if start < stop ∧ buffer[start]? = some 91 ∧ buffer[stop - 1]? = some 93 then max stop (start + 12) else stop

/-- The end of what the loop of `StructuredData` reads (message-immutable.go:105-113) when timequality is registered. -/
def sdEnd (buffer : Bytes) : Nat → List Int → Nat
  | _, [] => 0
  | start, stop :: r => max (tqEnd buffer start stop.toNat) (sdEnd buffer stop.toNat r)

/-- The end of what `StructuredData` (message-immutable.go:91-116) reads of the buffer of the message. -/
def sdReads (m : MsgImm) : Nat :=
  match m.index.drop 5 with
  -- message-immutable.go:97-99
  | [i5, e] => if m.buffer.vis[(i5 + 1).toNat]? = some 45 then (i5 + 1).toNat + 1 else sdEnd m.buffer.vis (i5 + 1).toNat [e]
  | i5 :: r => sdEnd m.buffer.vis (i5 + 1).toNat r
  | [] => 0

/-- The places read by a call of `StructuredData` or `Writable` on a delivered message. -/
def SDReads (s : State) (d : Delivered) (p : Place) : Prop :=
  p.arr = d.arr ∧ s.startOf d ≤ p.pos ∧ p.pos < s.startOf d + max d.msg.buffer.len (sdReads d.msg)

/-- The places read by a call of any other accessor on a delivered message (message-immutable.go:30-88,119-138). -/
def AccessorReads (s : State) (d : Delivered) (p : Place) : Prop :=
  p.arr = d.arr ∧ s.startOf d ≤ p.pos ∧ p.pos < s.startOf d + d.msg.buffer.len

end Syslog5424.Tok
