import Verif.Spec.Decimal
import Verif.Spec.Text
import Verif.Spec.SData
import Verif.Spec.Time
/-! # Specification: the SYSLOG-MSG grammar of RFC 5424 section 6 -/
namespace Syslog5424.Spec

/-- Exactly `n` digits with value `v`. -/
def DigitsOf (n v : Nat) (s : Bytes) : Prop := s.length = n ∧ (∀ c ∈ s, IsDigit c) ∧ value s = v

/-- TIME-SECFRAC for a number of microseconds: nothing, or `.` and 1 to 6 digits. -/
def SecFrac (us : Nat) (s : Bytes) : Prop :=
  (s = [] ∧ us = 0) ∨
  ∃ f, s = b!"." ++ f ∧ 1 ≤ f.length ∧ f.length ≤ 6 ∧ (∀ c ∈ f, IsDigit c) ∧ value f * 10 ^ (6 - f.length) = us

/-- TIME-OFFSET for a number of minutes: `Z`, or a sign, hours and minutes. -/
def TimeOffset (minutes : Int) (s : Bytes) : Prop :=
  (s = b!"Z" ∧ minutes = 0) ∨
  ∃ sg h m hh mm, s = [sg] ++ hh ++ b!":" ++ mm ∧ DigitsOf 2 h hh ∧ DigitsOf 2 m mm ∧ h ≤ 23 ∧ m ≤ 59 ∧
    ((sg = 43 ∧ minutes = ((h * 60 + m : Nat) : Int)) ∨ (sg = 45 ∧ minutes = -((h * 60 + m : Nat) : Int)))

/-- TIMESTAMP: FULL-DATE `T` PARTIAL-TIME TIME-OFFSET. -/
def Timestamp (year month day hour minute second us : Nat) (offset : Int) (s : Bytes) : Prop :=
  ∃ y mo d h mi se fr z,
    s = y ++ b!"-" ++ mo ++ b!"-" ++ d ++ b!"T" ++ h ++ b!":" ++ mi ++ b!":" ++ se ++ fr ++ z ∧
    DigitsOf 4 year y ∧ DigitsOf 2 month mo ∧ 1 ≤ month ∧ month ≤ 12 ∧
    DigitsOf 2 day d ∧ 1 ≤ day ∧ day ≤ monthDays month year ∧
    DigitsOf 2 hour h ∧ hour ≤ 23 ∧ DigitsOf 2 minute mi ∧ minute ≤ 59 ∧ DigitsOf 2 second se ∧ second ≤ 59 ∧
    SecFrac us fr ∧ TimeOffset offset z

/-- SD-ELEMENT. -/
def SdElement (s : Bytes) : Prop :=
  ∃ id ps, s = elementText id ps ∧ IsSdName id ∧ ∀ p ∈ ps, IsSdName p.1 ∧ RawValue p.2

/-- STRUCTURED-DATA: `-` or one or more elements. -/
def StructuredData (s : Bytes) : Prop :=
  s = b!"-" ∨ ∃ xs : List Bytes, xs ≠ [] ∧ (∀ x ∈ xs, SdElement x) ∧ s = xs.flatten

/-- SYSLOG-MSG with the given parts: HEADER SP STRUCTURED-DATA [SP MSG]. -/
def SyslogMsg (prival : Nat) (timestamp host app procid msgid sd : Bytes) (msg : Option Bytes) (s : Bytes) : Prop :=
  ∃ pri, IsDecimal prival pri ∧ prival ≤ 191 ∧
    ValidField 255 host ∧ ValidField 48 app ∧ ValidField 128 procid ∧ ValidField 32 msgid ∧ StructuredData sd ∧
    s = b!"<" ++ pri ++ b!">1 " ++ timestamp ++ b!" " ++ host ++ b!" " ++ app ++ b!" " ++ procid ++ b!" " ++ msgid ++
      b!" " ++ sd ++ (match msg with | none => [] | some m => b!" " ++ m)

end Syslog5424.Spec
