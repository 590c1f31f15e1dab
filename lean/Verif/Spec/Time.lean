import Verif.Model.Time
/-! # Specification: dates and times -/
namespace Syslog5424

/-- Days of a month in the Gregorian calendar. -/
def Spec.monthDays (month year : Nat) : Nat :=
  if month = 2 then (if year % 4 = 0 ∧ (year % 100 ≠ 0 ∨ year % 400 = 0) then 29 else 28)
  else if month ∈ [4, 6, 9, 11] then 30 else 31

/-- A date and time of the civil calendar, with a four digit year and an offset of whole minutes below
25 hours. -/
structure Time.Valid (t : Time) : Prop where
  year : 0 ≤ t.year ∧ t.year ≤ 9999
  month : 1 ≤ t.month ∧ t.month ≤ 12
  day : 1 ≤ t.day ∧ t.day ≤ Spec.monthDays t.month t.year.toNat
  hour : t.hour < 24
  minute : t.minute < 60
  second : t.second < 60
  nsec : t.nsec < 10 ^ 9
  off : -90000 < t.off ∧ t.off < 90000 ∧ t.off % 60 = 0

/-- The time without what is below the microsecond. -/
def Time.microseconds (t : Time) : Time := { t with nsec := t.nsec / 1000 * 1000 }

end Syslog5424
