import Verif.Spec.Clock
import Verif.Spec.Time
/-! # Specification: what a reader takes for a timestamp -/
namespace Syslog5424.Spec

/-- An offset in seconds: `Z`, or a sign, two digits, a colon and two digits, at most 24 hours and 60 minutes. -/
def IsOffset (s : Bytes) (off : Int) : Prop :=
  (s = b!"Z" ∧ off = 0) ∨
  ∃ sg hh mm h m, s = [sg] ++ hh ++ b!":" ++ mm ∧ IsNumber (· = 2) hh h ∧ IsNumber (· = 2) mm m ∧ h ≤ 24 ∧ m ≤ 60 ∧
    (sg = 43 ∧ off = ((h * 60 + m) * 60 : Nat) ∨ sg = 45 ∧ off = -(((h * 60 + m) * 60 : Nat) : Int))

/-- `s` reads as the time `t`: year, month and day, `T`, hour (of one or two digits), minute and second, a fraction of a
second or none, and an offset; every number is in its range, and the day is one of the month. -/
def TimeReads (s : Bytes) (t : Time) : Prop :=
  ∃ yy mo dd hh mm ss fr z, ∃ year : Nat,
    s = yy ++ b!"-" ++ mo ++ b!"-" ++ dd ++ b!"T" ++ hh ++ b!":" ++ mm ++ b!":" ++ ss ++ fr ++ z ∧
    IsNumber (· = 4) yy year ∧ t.year = year ∧
    IsNumber (· = 2) mo t.month ∧ 1 ≤ t.month ∧ t.month ≤ 12 ∧
    IsNumber (· = 2) dd t.day ∧ 1 ≤ t.day ∧ t.day ≤ monthDays t.month year ∧
    IsNumber (fun l => l = 1 ∨ l = 2) hh t.hour ∧ t.hour < 24 ∧
    IsNumber (· = 2) mm t.minute ∧ t.minute < 60 ∧
    IsNumber (· = 2) ss t.second ∧ t.second < 60 ∧
    IsFraction fr t.nsec ∧ IsOffset z t.off

end Syslog5424.Spec
