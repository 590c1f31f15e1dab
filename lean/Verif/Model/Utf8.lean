import Verif.Go
/-!
# Model of the parts of the packages unicode and unicode/utf8 that the code uses

`for _, c := range s` decodes runes as `DecodeRuneInString` does (sdata/structured-data.go:69); `strconv.Quote` uses it too.
-/
namespace Syslog5424

/-- `first` and `acceptRanges` (package utf8): the length announced by a first byte, and the range of the second. -/
def utf8First (c : UInt8) : Option (Nat × UInt8 × UInt8) :=
  if c < 0xC2 then none
  else if c < 0xE0 then some (2, 0x80, 0xBF)
  else if c = 0xE0 then some (3, 0xA0, 0xBF)
  else if c = 0xED then some (3, 0x80, 0x9F)
  else if c < 0xF0 then some (3, 0x80, 0xBF)
  else if c = 0xF0 then some (4, 0x90, 0xBF)
  else if c < 0xF4 then some (4, 0x80, 0xBF)
  else if c = 0xF4 then some (4, 0x80, 0x8F)
  else none

/-- `locb <= b && b <= hicb` (package utf8). -/
def utf8Cont (b : UInt8) : Bool := 0x80 ≤ b && b ≤ 0xBF

/-- `utf8.DecodeRuneInString`: the rune and its width; `(RuneError, 1)` if the bytes are not UTF-8. -/
def decodeRune : Bytes → Nat × Nat
  | [] => (0xFFFD, 0)
  | c :: s =>
    if c < 0x80 then (c.toNat, 1)
    else
      match utf8First c with
      | some (2, lo, hi) =>
        match s with
        | b1 :: _ =>
          if lo ≤ b1 ∧ b1 ≤ hi then (c.toNat % 32 * 64 + b1.toNat % 64, 2) else (0xFFFD, 1)
        | _ => (0xFFFD, 1)
      | some (3, lo, hi) =>
        match s with
        | b1 :: b2 :: _ =>
          if (lo ≤ b1 ∧ b1 ≤ hi) ∧ utf8Cont b2 then
            (c.toNat % 16 * 4096 + b1.toNat % 64 * 64 + b2.toNat % 64, 3)
          else (0xFFFD, 1)
        | _ => (0xFFFD, 1)
      | some (4, lo, hi) =>
        match s with
        | b1 :: b2 :: b3 :: _ =>
          if (lo ≤ b1 ∧ b1 ≤ hi) ∧ utf8Cont b2 ∧ utf8Cont b3 then
            (c.toNat % 8 * 262144 + b1.toNat % 64 * 4096 + b2.toNat % 64 * 64 + b3.toNat % 64, 4)
          else (0xFFFD, 1)
        | _ => (0xFFFD, 1)
      | _ => (0xFFFD, 1)

/-- `utf8.AppendRune` on a valid rune. -/
def encodeRune (r : Nat) : Bytes :=
  if r < 0x80 then [UInt8.ofNat r]
  else if r < 0x800 then [UInt8.ofNat (0xC0 + r / 64), UInt8.ofNat (0x80 + r % 64)]
  else if r < 0x10000 then
    [UInt8.ofNat (0xE0 + r / 4096), UInt8.ofNat (0x80 + r / 64 % 64), UInt8.ofNat (0x80 + r % 64)]
  else [UInt8.ofNat (0xF0 + r / 262144), UInt8.ofNat (0x80 + r / 4096 % 64), UInt8.ofNat (0x80 + r / 64 % 64),
    UInt8.ofNat (0x80 + r % 64)]

/-- `unicode.IsLetter(r) || unicode.IsDigit(r)` above U+00FF: the tables of package unicode, nothing is assumed about
them. -/
opaque letterOrDigitAbove (r : Nat) : Bool

/-- `unicode.IsLetter(r) || unicode.IsDigit(r)`. U+FFFD, which stands for wrong bytes, is a symbol. -/
def isLetterOrDigit (r : Nat) : Bool :=
  if r < 128 then (48 ≤ r && r ≤ 57) || (65 ≤ r && r ≤ 90) || (97 ≤ r && r ≤ 122)
  else if r ≤ 0xFF then r == 0xAA || r == 0xB5 || r == 0xBA || (0xC0 ≤ r && r != 0xD7 && r != 0xF7)
  else r != 0xFFFD && letterOrDigitAbove r

end Syslog5424
