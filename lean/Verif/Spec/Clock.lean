import Verif.Spec.Time
import Verif.Spec.TimeQuality
/-! # Specification: old-style stamps and instants -/
namespace Syslog5424.Spec

/-- The English abbreviation of a month. -/
def monthName : Nat → Bytes
  | 1 => b!"Jan" | 2 => b!"Feb" | 3 => b!"Mar" | 4 => b!"Apr" | 5 => b!"May" | 6 => b!"Jun"
  | 7 => b!"Jul" | 8 => b!"Aug" | 9 => b!"Sep" | 10 => b!"Oct" | 11 => b!"Nov" | _ => b!"Dec"

/-- Two digits. -/
def twoDigits (n : Nat) : Bytes := [UInt8.ofNat (48 + n / 10), UInt8.ofNat (48 + n % 10)]

/-- Two columns: a space takes the place of a leading zero. -/
def twoColumns (n : Nat) : Bytes := if n < 10 then [32, UInt8.ofNat (48 + n)] else twoDigits n

/-- The timestamp of RFC 3164: `Jan  2 15:04:05`. -/
def stampText (month day hour minute second : Nat) : Bytes :=
  monthName month ++ [32] ++ twoColumns day ++ [32] ++ twoDigits hour ++ [58] ++ twoDigits minute ++ [58] ++ twoDigits second

/-- Leap years of the Gregorian calendar. -/
def Leap (year : Int) : Prop := year % 4 = 0 ∧ (year % 100 ≠ 0 ∨ year % 400 = 0)

instance (y : Int) : Decidable (Leap y) := inferInstanceAs (Decidable (_ ∧ _))

/-- Length of a month. -/
def monthLength (month : Nat) (year : Int) : Nat :=
  if month = 2 then (if Leap year then 29 else 28) else if month ∈ [4, 6, 9, 11] then 30 else 31

/-- Days from January 1 to the first day of a month. -/
def daysToMonth (year : Int) : Nat → Nat
  | 0 => 0
  | 1 => 0
  | m + 1 => daysToMonth year m + monthLength m year

/-- The number of days from January 1 of the year 1 to a date. -/
def dayNumber (year : Int) (month day : Nat) : Int :=
  365 * (year - 1) + (year - 1) / 4 - (year - 1) / 100 + (year - 1) / 400 + daysToMonth year month + day - 1

/-- A date and time that exists. -/
structure Exists (t : Time) : Prop where
  month : 1 ≤ t.month ∧ t.month ≤ 12
  day : 1 ≤ t.day ∧ t.day ≤ monthLength t.month t.year
  hour : t.hour < 24
  minute : t.minute < 60
  second : t.second < 60
  nsec : t.nsec < 10 ^ 9

/-- The nanoseconds from 1970-01-01T00:00:00Z to a date and time with an offset. -/
def instant (t : Time) : Int :=
  (((dayNumber t.year t.month t.day - dayNumber 1970 1 1) * 86400 + t.hour * 3600 + t.minute * 60 + t.second) - t.off) * 10 ^ 9 + t.nsec

end Syslog5424.Spec
namespace Syslog5424.Spec

/-- ASCII lower case. -/
def lower (c : UInt8) : UInt8 := if 65 ≤ c.toNat ∧ c.toNat ≤ 90 then c + 32 else c

/-- A number written with `digits` digits. -/
def IsNumber (digits : Nat → Prop) (ds : Bytes) (n : Nat) : Prop := digits ds.length ∧ (∀ d ∈ ds, IsDigit d) ∧ value ds = n

/-- A fraction of a second, or none: the separator and digits, of which nine count. -/
def IsFraction (s : Bytes) (nsec : Nat) : Prop :=
  (s = [] ∧ nsec = 0) ∨
  ∃ sep ds, (sep = 46 ∨ sep = 44) ∧ ds ≠ [] ∧ (∀ d ∈ ds, IsDigit d) ∧ s = sep :: ds ∧
    nsec = value (ds.take 9) * 10 ^ (9 - (ds.take 9).length)

/-- The stamps that are accepted: month in any case, spaces, day, spaces, hour, `:`, minute, `:`, second, and a fraction
of a second. The day exists in that month (February has 29). -/
def StampReads (s : Bytes) (month day hour minute second nsec : Nat) : Prop :=
  ∃ name k dd j hh mm ss fr,
    s = name ++ List.replicate (k + 1) 32 ++ dd ++ List.replicate (j + 1) 32 ++ hh ++ [58] ++ mm ++ [58] ++ ss ++ fr ∧
    1 ≤ month ∧ month ≤ 12 ∧ name.map lower = (monthName month).map lower ∧
    IsNumber (fun l => l = 1 ∨ l = 2) dd day ∧ 1 ≤ day ∧ day ≤ monthLength month 2000 ∧
    IsNumber (fun l => l = 1 ∨ l = 2) hh hour ∧ hour < 24 ∧ IsNumber (· = 2) mm minute ∧ minute < 60 ∧
    IsNumber (· = 2) ss second ∧ second < 60 ∧ IsFraction fr nsec

/-- `s` is an optional sign and at least one digit; its value is `v`. -/
def Integer (s : Bytes) (v : Int) : Prop :=
  ∃ sign ds, s = sign ++ ds ∧ ds ≠ [] ∧ (∀ d ∈ ds, IsDigit d) ∧
    ((sign = b!"" ∨ sign = b!"+") ∧ v = value ds ∨ sign = b!"-" ∧ v = -(value ds : Int))

/-- The reading of a number that never fails: what is not a number counts as 0, what does not fit in 64 bits counts as
the largest or smallest number that does. -/
def Lenient (s : Bytes) (v : Int) : Prop :=
  (∃ n, Integer s n ∧ v = max (-(2 ^ 63)) (min n (2 ^ 63 - 1))) ∨ ((¬ ∃ n, Integer s n) ∧ v = 0)

end Syslog5424.Spec
