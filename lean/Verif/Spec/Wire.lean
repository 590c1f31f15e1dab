import Verif.Spec.Receive
/-! # Specification: what may be delivered from arbitrary bytes -/
namespace Syslog5424.Spec

/-- `hdr` is a decimal number with the value `l`: an optional sign and digits, leading zeros allowed. -/
def ReadsInt (hdr : Bytes) (l : Int) : Prop :=
  ∃ sign ds, hdr = sign ++ ds ∧ ds ≠ [] ∧ (∀ d ∈ ds, IsDigit d) ∧
    ((sign = [] ∨ sign = b!"+") ∧ l = (value ds : Nat) ∨ sign = b!"-" ∧ l = -((value ds : Nat) : Int))

/-- The terminator of the transports that have one. -/
def terminator : Transport → Option UInt8
  | .lfEnded => some 10
  | .zeroEnded => some 0
  | .rfc5425 => none

/-- What a terminated message is: six header fields, structured data (or `-`), one byte, and a text without
terminator; the pair delivered for it has its bytes, its fields and its text, and no error. -/
def LineMessage (c : UInt8) (p : Bytes) (m : MsgImm) (err : Option Err) : Prop :=
  ∃ pri ts host app pid mid sd y text,
    (∀ f ∈ [pri, ts, host, app, pid, mid], RawField f) ∧
    p = headerText [pri, ts, host, app, pid, mid] ++ sd ++ [y] ++ text ∧ c ∉ text ∧
    (sd = b!"-" ∧ y = 32 ∨ ∃ xs : List Bytes, sd = xs.flatten ∧ ∀ x ∈ xs, Element x) ∧
    err = none ∧ m.string = p ∧ ReadsAs m pri ts host app pid mid text

/-- `piece`, cut from the stream, accounts for the pair `(m, err)`: it is a frame of the transport, and the pair is
what receiving its payload gives. -/
inductive TakenFrom : Transport → Bytes → MsgImm → Option Err → Prop
  | counted {hdr p : Bytes} {m : MsgImm} {err : Option Err} : ReadsInt hdr p.length → Conveys p m err →
      TakenFrom .rfc5425 (hdr ++ b!" " ++ p) m err
  | ended {t : Transport} {c : UInt8} {p : Bytes} {m : MsgImm} {err : Option Err} : terminator t = some c →
      LineMessage c p m err → TakenFrom t (p ++ [c]) m err

/-! ## the reference decoder for RFC 5425 streams -/

/-- `b` begins with a frame that the receiver takes: at least 20 bytes are there, the bytes before the first space are
the length of the payload `p`, the payload is complete (and ends at a 64-bit position), and `suffix` follows. -/
structure Ready (b hdr p suffix : Bytes) : Prop where
  bytes : b = hdr ++ b!" " ++ p ++ suffix
  enough : 20 ≤ b.length
  header : (32 : UInt8) ∉ hdr
  length : ReadsInt hdr p.length
  range : hdr.length + 1 + p.length < 2 ^ 63

/-- `Decodes b ps rest`: the frames at the front of `b` have the payloads `ps`, and `rest` does not begin with a frame. -/
inductive Decodes : Bytes → List Bytes → Bytes → Prop
  | stop {b : Bytes} : (¬ ∃ hdr p suffix, Ready b hdr p suffix) → Decodes b [] b
  | take {b hdr p suffix rest : Bytes} {ps : List Bytes} : Ready b hdr p suffix → Decodes suffix ps rest →
      Decodes b (p :: ps) rest

/-- The header is a 64-bit number, but negative, or so large that the end of the frame is not a 64-bit number. -/
def BadHeader (b : Bytes) : Prop :=
  ∃ hdr pl l, b = hdr ++ b!" " ++ pl ∧ 20 ≤ b.length ∧ (32 : UInt8) ∉ hdr ∧ ReadsInt hdr l ∧
    -(2 ^ 63) ≤ l ∧ l < 2 ^ 63 ∧ (l < 0 ∨ 2 ^ 63 ≤ (hdr.length : Int) + 1 + l)

/-- The payload is not complete, and what is there of it is a message with nothing behind its structured data. -/
def Truncated (b : Bytes) : Prop :=
  ∃ hdr pl l, b = hdr ++ b!" " ++ pl ∧ 20 ≤ b.length ∧ (32 : UInt8) ∉ hdr ∧ ReadsInt hdr l ∧
    (pl.length : Int) < l ∧ (hdr.length : Int) + 1 + l < 2 ^ 63 ∧ ∃ fs xs, Frame pl fs xs none

/-- Behind some frames of `b` there is a header of the bad kind, or, if the file ends there, a payload that is cut
right behind the structured data of a message. -/
inductive CrashesOn (eof : Prop) : Bytes → Prop
  | header {b : Bytes} : BadHeader b → CrashesOn eof b
  | truncated {b : Bytes} : eof → Truncated b → CrashesOn eof b
  | later {b hdr p suffix : Bytes} : Ready b hdr p suffix → CrashesOn eof suffix → CrashesOn eof b

/-! ## which error `Parse` gives for the bytes of a transport -/

/-- What is wrong with the bytes `b` at the front of an RFC 5425 stream, and the error that says so. -/
inductive WrongFrame (atEOF : Bool) : Bytes → Err → Prop
  /-- there is no header: the bytes have no space, or begin with a space -/
  | noHeader {b : Bytes} : 20 ≤ b.length → ((32 : UInt8) ∉ b ∨ ∃ r, b = b!" " ++ r) → WrongFrame atEOF b .noHeader
  /-- what is before the first space is not a 64-bit number -/
  | invHeader {hdr r : Bytes} : 20 ≤ (hdr ++ b!" " ++ r).length → hdr ≠ [] → (32 : UInt8) ∉ hdr →
      (¬ ∃ l, ReadsInt hdr l ∧ -(2 ^ 63) ≤ l ∧ l < 2 ^ 63) → WrongFrame atEOF (hdr ++ b!" " ++ r) .invHeader
  /-- the end of the file, inside a payload, which is not a message up to there -/
  | incomplete {hdr pl : Bytes} {l : Int} {e : Err} : 20 ≤ (hdr ++ b!" " ++ pl).length → (32 : UInt8) ∉ hdr → ReadsInt hdr l →
      (pl.length : Int) < l → (hdr.length : Int) + 1 + l < 2 ^ 63 → atEOF = true → Wrong pl e →
      WrongFrame atEOF (hdr ++ b!" " ++ pl) .incomplete
  /-- the payload of the first frame is wrong -/
  | payload {b hdr p suffix : Bytes} {e : Err} : Ready b hdr p suffix → Wrong p e → WrongFrame atEOF b e

/-- What is wrong with the bytes `b` of a stream with the terminator `c`, and the error that says so. All the bytes are
taken for one message: a terminator before the text does not end it. -/
inductive WrongLine (t : Transport) (atEOF : Bool) : Bytes → Err → Prop
  /-- the bytes are wrong -/
  | bytes {b : Bytes} {e : Err} : b ≠ [] → Wrong b e → WrongLine t atEOF b e
  /-- the end of the file, in the text of a message -/
  | unended {b : Bytes} {fs xs : List Bytes} {y : UInt8} {text : Bytes} : t = .lfEnded → atEOF = true →
      Frame b fs xs (some (y :: text)) → text ≠ [] → (10 : UInt8) ∉ text → WrongLine t atEOF b .incomplete

/-- Two received messages look the same: the same bytes, and (unless there are none) the same fields and text. -/
def SameToUser (m m' : MsgImm) : Prop :=
  m.string = m'.string ∧ (m.string ≠ [] → m.priority = m'.priority ∧ m.timeStamp = m'.timeStamp ∧ m.hostname = m'.hostname ∧
    m.appName = m'.appName ∧ m.procID = m'.procID ∧ m.msgID = m'.msgID ∧ m.textOf = m'.textOf)

end Syslog5424.Spec
