import Verif.Spec.Wire
/-! # Specification: the reference decoder for LF and NUL terminated streams -/
namespace Syslog5424.Spec

/-- `b`, taken as a whole for the bytes of one message (header fields, structured data, one byte, and the text up to
the end of `b`), has the terminator `c` in its text. The message `p` is what is before it, its text is `text`, and
`suffix` follows. A terminator before the text (in a header field, or between the elements of structured data)
does not end the message. -/
def LineReady (c : UInt8) (b p text suffix : Bytes) : Prop :=
  ∃ fs xs y, Frame b fs xs (some (y :: (text ++ [c] ++ suffix))) ∧ c ∉ text ∧ b = p ++ [c] ++ suffix

/-- What is delivered from the bytes `b` that are there after a read, and what is kept. -/
inductive DecodesLines (c : UInt8) : Bytes → List (Bytes × Bytes) → Bytes → Prop
  | stop {b : Bytes} : (¬ ∃ p text suffix, LineReady c b p text suffix) → DecodesLines c b [] b
  | take {b p text suffix rest : Bytes} {ps : List (Bytes × Bytes)} : LineReady c b p text suffix →
      DecodesLines c suffix ps rest → DecodesLines c b ((p, text) :: ps) rest

/-- The bytes on which the receiver crashes: behind some messages there is one that stops right behind its
structured data. -/
inductive CrashesOnLines (c : UInt8) : Bytes → Prop
  | now {b : Bytes} {fs xs : List Bytes} : Frame b fs xs none → CrashesOnLines c b
  | later {b p text suffix : Bytes} : LineReady c b p text suffix → CrashesOnLines c suffix → CrashesOnLines c b

/-- The reference decoder: `kept` waits, then reads with the bytes `datas` arrive one after the other; `ps` is what is
delivered (bytes and text of each message), and `kept'` waits at the end. Each read that brings bytes is one attempt to
decode what is there. -/
inductive DecodesReads (c : UInt8) : Bytes → List Bytes → List (Bytes × Bytes) → Bytes → Prop
  | nil {kept : Bytes} : DecodesReads c kept [] [] kept
  | empty {kept kept' : Bytes} {datas : List Bytes} {ps : List (Bytes × Bytes)} :
      DecodesReads c kept datas ps kept' → DecodesReads c kept ([] :: datas) ps kept'
  | read {kept data kept1 kept' : Bytes} {datas : List Bytes} {ps qs : List (Bytes × Bytes)} : data ≠ [] →
      ¬ CrashesOnLines c (kept ++ data) → DecodesLines c (kept ++ data) ps kept1 →
      DecodesReads c kept1 datas qs kept' → DecodesReads c kept (data :: datas) (ps ++ qs) kept'

/-- The pair delivered for the message with the bytes `p` and the text `text`: no error, these bytes, this text, and the
six header fields that `p` begins with. -/
def LineIs (p text : Bytes) (m : MsgImm) (err : Option Err) : Prop :=
  ∃ pri ts host app pid mid sd y,
    (∀ f ∈ [pri, ts, host, app, pid, mid], RawField f) ∧
    p = headerText [pri, ts, host, app, pid, mid] ++ sd ++ [y] ++ text ∧
    err = none ∧ m.string = p ∧ ReadsAs m pri ts host app pid mid text

end Syslog5424.Spec
