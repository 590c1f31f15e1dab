import Verif.Model.Message
/-!
# Model of the clock functions of `message.go`: `stampToTs`, `deltaBootToTs`, `epochToTs`

with the functions of the Go standard library they use: `time.Parse(time.Stamp, _)`, `time.Date`, `strconv.ParseInt`,
`time.Unix`, `Time.Add` and the conversion of an instant to a civil date (`time.absDate`).

A `Message` holds a `Time` (civil fields and offset). A `time.Time` computed by `time.Unix` or `Add` is an instant, seen
through a location; the location is a function `zone` from the seconds since 1970 to the offset east of UTC.
-/
namespace Syslog5424.Clock
open Time

/-! ## `time.Parse(time.Stamp, _)`; the layout is `Jan _2 15:04:05` -/

/-- `time.shortMonthNames` -/
def shortMonths : List Bytes :=
  [b!"Jan", b!"Feb", b!"Mar", b!"Apr", b!"May", b!"Jun", b!"Jul", b!"Aug", b!"Sep", b!"Oct", b!"Nov", b!"Dec"]

/-- One byte of `time.match`: equal, or the same ASCII letter in the other case. -/
def matchByte (a b : UInt8) : Bool := a == b || ((a ||| 32) == (b ||| 32) && 97 ≤ (a ||| 32) && (a ||| 32) ≤ 122)

/-- `time.lookup(time.shortMonthNames, value)`: the index of the first name that matches, and the rest. -/
def lookupMonth (value : Bytes) : List Bytes → Nat → Option (Nat × Bytes)
  | [], _ => none
  | v :: r, i =>
    if v.length ≤ value.length ∧ ((value.take v.length).zip v).all (fun p => matchByte p.1 p.2) then some (i, value.drop v.length)
    else lookupMonth value r (i + 1)

/-- `time.skip(value, " ")`: nothing, or at least one space; all spaces are skipped. -/
def skipSpace (value : Bytes) : Option Bytes :=
  match value with
  | [] => some []
  | c :: r => if c ≠ 32 then none else some ((c :: r).dropWhile (· == 32))

/-- The space the chunk `_2` allows before the day. -/
def dropOneSpace : Bytes → Bytes
  | [] => []
  | c :: r => if c = 32 then r else c :: r

/-- The civil fields `time.Parse` finds with the layout `time.Stamp`; `none` is an error. The year is 0 (a leap year). -/
structure StampFields where
  month : Nat
  day : Nat
  hour : Nat
  minute : Nat
  second : Nat
  nsec : Nat
deriving Repr, DecidableEq

/-- `time.Parse(time.Stamp, s)` (message.go:58). -/
def parseStamp (s : Bytes) : Option StampFields := do
  let (mo, s) ← lookupMonth s shortMonths 0
  let s ← skipSpace s
  -- `_2`: one more space is allowed (it was skipped already)
  let s := dropOneSpace s
  let (d, s) ← getnum12 s
  let s ← skipSpace s
  let (h, s) ← getnum12 s
  if h ≥ 24 then none else
  let s ← skipByte 58 s
  let (mi, s) ← getnum2 s
  if mi ≥ 60 then none else
  let s ← skipByte 58 s
  let (sec, s) ← getnum2 s
  if sec ≥ 60 then none else
  -- a fraction is accepted though the layout has none
  let (ns, s) := getfrac s
  if s ≠ [] then none else
  if d < 1 ∨ d > daysIn (mo + 1) 0 then none else
  some ⟨mo + 1, d, h, mi, sec, ns⟩

/-- `time.Date(year, month, day, ..., time.UTC)` for a day that exists in the month of some year: the only date that is
normalised is February 29 of a common year. -/
def date (year : Int) (f : StampFields) : Time :=
  if f.day > daysIn f.month year then
    ⟨year, f.month + 1, f.day - daysIn f.month year, f.hour, f.minute, f.second, f.nsec, 0⟩
  else ⟨year, f.month, f.day, f.hour, f.minute, f.second, f.nsec, 0⟩

/-- `stampToTs` (message.go:56-66); `nowYear` and `nowMonth` are those of `time.Now()`. The zero time, with which
`time.Parse` answers an error, is January 1, 00:00:00 UTC. -/
def stampToTs (nowYear : Int) (nowMonth : Nat) (stamp : Bytes) : Time :=
  let ts := (parseStamp stamp).getD ⟨1, 1, 0, 0, 0, 0⟩
  let year := if nowMonth = 1 ∧ ts.month = 12 then nowYear - 1 else nowYear
  date year ts

/-! ## Instants -/

/-- `strconv.ParseInt(s, 10, 64)` when its error is ignored: 0 for a syntax error, the nearest limit when the number does
not fit. -/
def parseInt64 (s : Bytes) : Int :=
  let neg := s.head? == some 45
  let ds := if s.head? == some 45 || s.head? == some 43 then s.drop 1 else s
  if ds.isEmpty || !ds.all isDigit then 0
  else if neg then (if decVal ds ≤ 2 ^ 63 then -(decVal ds : Int) else -(2 ^ 63))
  else (if decVal ds < 2 ^ 63 then (decVal ds : Int) else 2 ^ 63 - 1)

/-- An instant: `unixSec()` of a `time.Time` (an int64) and its nanoseconds. -/
structure Instant where
  sec : Int
  nsec : Int
deriving Repr, DecidableEq

/-- `time.Unix(sec, nsec)`. -/
def unix (sec nsec : Int) : Instant :=
  if nsec < 0 ∨ 1000000000 ≤ nsec then
    let n := nsec.tdiv 1000000000
    let sec := wrap64 (sec + n)
    let nsec := nsec - n * 1000000000
    if nsec < 0 then ⟨wrap64 (sec - 1), nsec + 1000000000⟩ else ⟨sec, nsec⟩
  else ⟨sec, nsec⟩

/-- `Time.Add(d)` for a duration of `d` nanoseconds. The case of a result that does not fit in an int64 (which the
library saturates) is left out. -/
def Instant.add (t : Instant) (d : Int) : Instant :=
  let sec := t.sec + d.tdiv 1000000000
  let nsec := t.nsec + d.tmod 1000000000
  if 1000000000 ≤ nsec then ⟨sec + 1, nsec - 1000000000⟩
  else if nsec < 0 then ⟨sec - 1, nsec + 1000000000⟩
  else ⟨sec, nsec⟩

/-- `time.daysBefore` -/
def daysBefore : List Nat := [0, 31, 59, 90, 120, 151, 181, 212, 243, 273, 304, 334, 365]

/-- `time.absoluteZeroYear` -/
def absoluteZeroYear : Int := -292277022399

/-- `unixToInternal + internalToAbsolute` -/
def unixToAbsolute : Int := 9223372028715321600

/-- `time.absDate`, for the number of days `d` since January 1 of `absoluteZeroYear`: year, month and day. -/
def absDate (d : Nat) : Int × Nat × Nat :=
  let n := d / 146097
  let y := 400 * n
  let d := d - 146097 * n
  let n := d / 36524
  let n := n - n / 4
  let y := y + 100 * n
  let d := d - 36524 * n
  let n := d / 1461
  let y := y + 4 * n
  let d := d - 1461 * n
  let n := d / 365
  let n := n - n / 4
  let y := y + n
  let d := d - 365 * n
  let year : Int := y + absoluteZeroYear
  if isLeap year ∧ d = 59 then (year, 2, 29)
  else
    let day := if isLeap year ∧ d > 59 then d - 1 else d
    let month := day / 31
    let stop := daysBefore.getD (month + 1) 0
    if day ≥ stop then (year, month + 2, day - stop + 1)
    else (year, month + 1, day - daysBefore.getD month 0 + 1)

/-- The civil fields of an instant in a location: `Time.abs`, `time.absDate`, `time.absClock`. -/
def civil (zone : Int → Int) (t : Instant) : Time :=
  let off := zone t.sec
  let abs := ((t.sec + off + unixToAbsolute) % 2 ^ 64).toNat
  let (y, m, d) := absDate (abs / 86400)
  let s := abs % 86400
  ⟨y, m, d, s / 3600, s % 3600 / 60, s % 60, t.nsec.toNat, off⟩

/-- `deltaBootToTs` (message.go:73-78): the products and the sum of durations are int64. -/
def deltaBootToTs (boot : Instant) (strSec strNsec : Bytes) : Instant :=
  boot.add (wrap64 (parseInt64 strNsec + wrap64 (parseInt64 strSec * 1000000000)))

/-- `epochToTs` (message.go:85-90). -/
def epochToTs (strSec strNsec : Bytes) : Instant := unix (parseInt64 strSec) (parseInt64 strNsec)

end Syslog5424.Clock

namespace Syslog5424.Message
open Clock

/-- `Message.Timestamp` (message.go:69-71). -/
def setStamp (nowYear : Int) (nowMonth : Nat) (m : Message) (stamp : Bytes) : Message := m.setTime (stampToTs nowYear nowMonth stamp)
/-- `Message.Delta` (message.go:81-83); `zone` is the location of `bootTs`. -/
def setDelta (zone : Int → Int) (boot : Instant) (m : Message) (strSec strNsec : Bytes) : Message :=
  m.setTime (civil zone (deltaBootToTs boot strSec strNsec))
/-- `Message.Epoch` (message.go:93-95); `zone` is `time.Local`. -/
def setEpoch (zone : Int → Int) (m : Message) (strSec strNsec : Bytes) : Message := m.setTime (civil zone (epochToTs strSec strNsec))

end Syslog5424.Message
