import Verif.Go
/-!
# Model of `priority.go`
-/
namespace Syslog5424

/-- `type Priority int` (priority.go:8). -/
abbrev Priority := Int

/-- `severityMask`, `facilityMask` (priority.go:10-11). -/
def severityMask : BitVec 64 := 0x07
def facilityMask : BitVec 64 := 0xf8

/-- `Priority.Facility` (priority.go:123-125): bitwise and on a 64-bit two's complement int. -/
def Priority.facility (p : Int) : Int := (BitVec.ofInt 64 p &&& facilityMask).toInt

/-- `Priority.Severity` (priority.go:128-130). -/
def Priority.severity (p : Int) : Int := (BitVec.ofInt 64 p &&& severityMask).toInt

/-- `p | q` on 64-bit ints (priority.go:117, syslog.go:71,111). -/
def Priority.or (p q : Int) : Int := (BitVec.ofInt 64 p ||| BitVec.ofInt 64 q).toInt

/-- The `facility` map (priority.go:53-74, constants priority.go:26-51). -/
def facilityTable : List (Bytes × Priority) :=
  [ (b!"kern", 0), (b!"user", 8), (b!"mail", 16), (b!"daemon", 24), (b!"auth", 32),
    (b!"syslog", 40), (b!"lpr", 48), (b!"news", 56), (b!"uucp", 64), (b!"cron", 72),
    (b!"authpriv", 80), (b!"ftp", 88),
    (b!"local0", 128), (b!"local1", 136), (b!"local2", 144), (b!"local3", 152),
    (b!"local4", 160), (b!"local5", 168), (b!"local6", 176), (b!"local7", 184) ]

/-- The `severity` map (priority.go:76-85, constants priority.go:14-23). -/
def severityTable : List (Bytes × Priority) :=
  [ (b!"emerg", 0), (b!"alert", 1), (b!"crit", 2), (b!"err", 3),
    (b!"warning", 4), (b!"notice", 5), (b!"info", 6), (b!"debug", 7) ]

/-- `severityString` (priority.go:87). -/
def severityString : List Bytes :=
  [b!"emerg", b!"alert", b!"crit", b!"err", b!"warning", b!"notice", b!"info", b!"debug"]

/-- `facilityString` (priority.go:88-90). -/
def facilityString : List Bytes :=
  [b!"kern", b!"user", b!"mail", b!"daemon", b!"auth", b!"syslog", b!"lpr", b!"news",
   b!"uucp", b!"cron", b!"authpriv", b!"ftp", b!"-", b!"-", b!"-", b!"-",
   b!"local0", b!"local1", b!"local2", b!"local3", b!"local4", b!"local5", b!"local6", b!"local7"]

/-- `Priority.Set` (priority.go:93-120). The result is the new value of the receiver and the error.
The Go loop ranges over runes; '.' is ASCII, so the position found is the first byte '.'. -/
def Priority.set (p : Priority) (d : Bytes) : Priority × Option Err :=
  match indexByte 46 d with
  | none => (p, some .invalidFacSev)
  | some pos =>
    match facilityTable.lookup (d.take pos) with
    | none => (p, some .invalidFacSev)
    | some f =>
      match severityTable.lookup (d.drop (pos + 1)) with
      | none => (p, some .invalidFacSev)
      | some s => (Priority.or f s, none)

/-- Indexing a Go slice of strings. -/
def strAt (l : List Bytes) (i : Int) : Out Bytes :=
  if 0 ≤ i then
    match l[i.toNat]? with
    | some s => .ret s
    | none => .panic
  else .panic

/-- `Priority.String` (priority.go:132-134). `>> 3` is an arithmetic shift. -/
def Priority.string (p : Int) : Out Bytes := do
  let f ← strAt facilityString (Priority.facility p >>> (3 : Nat))
  let s ← strAt severityString (Priority.severity p)
  return f ++ [46] ++ s

/-- `byte(i)`: conversion of an int to a byte. -/
def toByte (i : Int) : UInt8 := UInt8.ofInt i

/-- `Priority.Marshal5424` (priority.go:137-156). `%` on Go ints is `Int.tmod`; the arithmetic on
`c`, `d`, `u` is on bytes. -/
def Priority.marshal (p : Priority) : Bytes :=
  let u := toByte (p.tmod 10)
  let d := toByte (p.tmod 100 - p.tmod 10)
  let c := toByte (p - p.tmod 100)
  let c := 48 + c / 100
  let d := 48 + d / 10
  let u := 48 + u / 1
  if c > 48 then [60, c, d, u, 62, 49]
  else if d > 48 then [60, d, u, 62, 49]
  else [60, u, 62, 49]

/-- The digit loop of `Priority.Unmarshal5424` (priority.go:176-183). -/
def unmarshalDigits : Nat → Bytes → Option Nat
  | tp, [] => some tp
  | tp, v :: r => if v < 48 ∨ v > 57 then none else unmarshalDigits (tp * 10 + (v - 48).toNat) r

/-- `Priority.Unmarshal5424` (priority.go:159-187): the new value of the receiver and the error. -/
def Priority.unmarshal (p : Priority) (d : Bytes) : Priority × Option Err :=
  let s := d.length
  if s < 4 then (p, some .badFormat)
  else if s > 6 then (p, some .badFormat)
  else if d[0]? ≠ some 60 then (p, some .badFormat)
  else if d[s - 1]? ≠ some 49 then (p, some .badFormat)
  else if d[s - 2]? ≠ some 62 then (p, some .badFormat)
  else
    match unmarshalDigits 0 ((d.take (s - 2)).drop 1) with
    | none => (p, some .badFormat)
    | some tp => ((tp : Int), none)

end Syslog5424
