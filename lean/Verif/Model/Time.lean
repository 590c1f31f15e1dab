import Verif.Go
/-!
# Model of the time formatting used by `message.go` / `message-immutable.go`

Only the layout `RFC5424TimeStamp = "2006-01-02T15:04:05.999999Z07:00"` (message.go:26) is modelled:
`Time.format` models `time.Time.Format` and `Time.parse` models `time.Parse` of the Go standard
library for that layout.

Simplification: a `time.Time` is represented by its civil date and time in its own location plus the
UTC offset in seconds at that instant (what `Format` prints and what `Parse` reads).
-/
namespace Syslog5424

/-- A `time.Time` as seen through its civil fields. -/
structure Time where
  year   : Int
  month  : Nat
  day    : Nat
  hour   : Nat
  minute : Nat
  second : Nat
  nsec   : Nat
  /-- offset of the location east of UTC, in seconds -/
  off    : Int
deriving Repr, DecidableEq

namespace Time

/-- The zero `time.Time` (year 1, January 1, 00:00 UTC), returned by `time.Parse` on error. -/
def zero : Time := ⟨1, 1, 1, 0, 0, 0, 0, 0⟩

/-- `time.Unix(0, 0)` seen in UTC (message.go:48). -/
def epoch : Time := ⟨1970, 1, 1, 0, 0, 0, 0, 0⟩

/-- `time.appendInt(b, x, width)` of the standard library, for a non-negative `x`: decimal digits
padded with zeros on the left. -/
def padNat (width x : Nat) : Bytes :=
  List.replicate (width - (natDec x).length) 48 ++ natDec x

/-- `time.appendInt` for any int (the sign comes before the padding). -/
def padInt (width : Nat) (x : Int) : Bytes :=
  if x < 0 then DASH :: padNat width (-x).toNat else padNat width x.toNat

/-- Remove trailing '0' bytes (the trimming loop of `time.appendNano`). -/
def trimZeros (b : Bytes) : Bytes := (b.reverse.dropWhile (· == 48)).reverse

/-- `time.appendNano` for `.999999`: nothing for 0, else '.' and the first six of nine digits,
without trailing zeros, and without the dot if nothing is left. -/
def fmtFrac (nsec : Nat) : Bytes :=
  if nsec = 0 then []
  else
    let ds := trimZeros ((padNat 9 nsec).take 6)
    if ds = [] then [] else 46 :: ds

/-- The `Z07:00` chunk of `time.Format`: 'Z' for offset 0, else sign, hours, ':' and minutes. -/
def fmtZone (off : Int) : Bytes :=
  if off = 0 then b!"Z"
  else
    let zone := off.tdiv 60
    let sign : UInt8 := if zone < 0 then 45 else 43
    let z := zone.natAbs
    sign :: (padNat 2 (z / 60) ++ [58] ++ padNat 2 (z % 60))

/-- `t.Format(RFC5424TimeStamp)` (message.go:150). -/
def format (t : Time) : Bytes :=
  padInt 4 t.year ++ [45] ++ padNat 2 t.month ++ [45] ++ padNat 2 t.day ++ [84] ++
  padNat 2 t.hour ++ [58] ++ padNat 2 t.minute ++ [58] ++ padNat 2 t.second ++
  fmtFrac t.nsec ++ fmtZone t.off

/-! ### time.Parse for the layout -/

/-- `time.getnum(s, true)`: exactly two digits. -/
def getnum2 : Bytes → Option (Nat × Bytes)
  | a :: b :: r => if isDigit a && isDigit b then some (decVal [a, b], r) else none
  | _ => none

/-- `time.getnum(s, false)`: one digit, or two if the second byte is a digit (used for "15"). -/
def getnum12 : Bytes → Option (Nat × Bytes)
  | a :: b :: r =>
    if isDigit a then
      if isDigit b then some (decVal [a, b], r) else some (decVal [a], b :: r)
    else none
  | [a] => if isDigit a then some (decVal [a], []) else none
  | [] => none

/-- The literal byte between two layout chunks. -/
def skipByte (c : UInt8) : Bytes → Option Bytes
  | a :: r => if a = c then some r else none
  | [] => none

/-- The `2006` chunk: four bytes, the first one a digit, read by `time.atoi`; for this layout the
only accepted forms are four digits. -/
def getyear (s : Bytes) : Option (Nat × Bytes) :=
  if s.length < 4 then none
  else if (s.take 4).all isDigit then some (decVal (s.take 4), s.drop 4) else none

/-- The `.999999` chunk: optional '.' or ',' followed by at least one digit; all digits are taken
and the first nine of them count (`time.parseNanoseconds`). -/
def getfrac (s : Bytes) : Nat × Bytes :=
  match s with
  | c :: d :: r =>
    if (c = 46 ∨ c = 44) ∧ isDigit d then
      let ds := (d :: r).takeWhile isDigit
      let ds9 := ds.take 9
      (decVal ds9 * 10 ^ (9 - ds9.length), (d :: r).dropWhile isDigit)
    else (0, s)
  | _ => (0, s)

/-- The `Z07:00` chunk: 'Z', or sign, two digits, ':', two digits, with hours at most 24 and
minutes at most 60; the result is the offset in seconds and the remaining bytes. -/
def getzone (s : Bytes) : Option (Int × Bytes) :=
  match s with
  | 90 :: r => some (0, r)
  | sg :: h1 :: h2 :: c :: m1 :: m2 :: r =>
    if c ≠ 58 then none
    else
      match getnum2 [h1, h2], getnum2 [m1, m2] with
      | some (hr, _), some (mm, _) =>
        if hr > 24 ∨ mm > 60 then none
        else if sg = 43 then some (((hr * 60 + mm) * 60 : Nat), r)
        else if sg = 45 then some (-(((hr * 60 + mm) * 60 : Nat) : Int), r)
        else none
      | _, _ => none
  | _ => none

/-- Leap years and month lengths (`time.isLeap`, `time.daysIn`). -/
def isLeap (y : Int) : Bool := y % 4 == 0 && (y % 100 != 0 || y % 400 == 0)

def daysIn (m : Nat) (y : Int) : Nat :=
  if m = 2 then (if isLeap y then 29 else 28)
  else if m = 4 ∨ m = 6 ∨ m = 9 ∨ m = 11 then 30
  else 31

/-- `time.Parse(RFC5424TimeStamp, s)` (message-immutable.go:52); `none` is an error. -/
def parse (s : Bytes) : Option Time := do
  let (y, s) ← getyear s
  let s ← skipByte 45 s
  let (mo, s) ← getnum2 s
  if mo = 0 ∨ mo > 12 then none else
  let s ← skipByte 45 s
  let (d, s) ← getnum2 s
  let s ← skipByte 84 s
  let (h, s) ← getnum12 s
  if h ≥ 24 then none else
  let s ← skipByte 58 s
  let (mi, s) ← getnum2 s
  if mi ≥ 60 then none else
  let s ← skipByte 58 s
  let (sec, s) ← getnum2 s
  if sec ≥ 60 then none else
  let (ns, s) := getfrac s
  let (off, s) ← getzone s
  if s ≠ [] then none else
  if d < 1 ∨ d > daysIn mo y then none else
  some ⟨y, mo, d, h, mi, sec, ns, off⟩

end Time
end Syslog5424
