import Verif.Go
/-! # Specification: header fields and white space -/
namespace Syslog5424.Spec

/-- PRINTUSASCII of RFC 5424: `%d33-126`. -/
def IsPrintUsAscii (b : UInt8) : Prop := 33 ≤ b.toNat ∧ b.toNat ≤ 126

instance (b : UInt8) : Decidable (IsPrintUsAscii b) := inferInstanceAs (Decidable (_ ∧ _))

/-- `1*n PRINTUSASCII` (the NILVALUE `-` is included). -/
def ValidField (n : Nat) (s : Bytes) : Prop :=
  1 ≤ s.length ∧ s.length ≤ n ∧ ∀ b ∈ s, IsPrintUsAscii b

instance (n : Nat) (s : Bytes) : Decidable (ValidField n s) := inferInstanceAs (Decidable (_ ∧ _))

/-- The code points with the Unicode property White_Space. -/
def whiteSpace : List Nat :=
  [0x09, 0x0A, 0x0B, 0x0C, 0x0D, 0x20, 0x85, 0xA0, 0x1680,
   0x2000, 0x2001, 0x2002, 0x2003, 0x2004, 0x2005, 0x2006, 0x2007, 0x2008, 0x2009, 0x200A,
   0x2028, 0x2029, 0x202F, 0x205F, 0x3000]

/-- UTF-8 encoding of a code point below U+10000. -/
def utf8 (c : Nat) : Bytes :=
  if c < 0x80 then [UInt8.ofNat c]
  else if c < 0x800 then [UInt8.ofNat (0xC0 + c / 64), UInt8.ofNat (0x80 + c % 64)]
  else [UInt8.ofNat (0xE0 + c / 4096), UInt8.ofNat (0x80 + c / 64 % 64), UInt8.ofNat (0x80 + c % 64)]

/-- `s` ends with a (UTF-8 encoded) white space character. -/
def EndsWithSpace (s : Bytes) : Prop := ∃ p, ∃ c ∈ whiteSpace, s = p ++ utf8 c

/-- `t` is `s` without its trailing white space characters. -/
def IsTrimOf (t s : Bytes) : Prop :=
  (∃ ws : List Nat, (∀ c ∈ ws, c ∈ whiteSpace) ∧ s = t ++ (ws.map utf8).flatten) ∧ ¬ EndsWithSpace t

/-- What sanitising to `n` bytes must do: `-` for the empty string, else keep at most `n` bytes, with
`%` (37) instead of each byte that is not printable. -/
def IsSanitised (n : Nat) (x y : Bytes) : Prop :=
  (x = [] → y = b!"-") ∧
  (x ≠ [] → y.length = min n x.length ∧ ∀ (i : Nat) (hx : i < x.length) (hy : i < y.length),
    (IsPrintUsAscii x[i] → y[i] = x[i]) ∧ (¬ IsPrintUsAscii x[i] → y[i] = 37))

end Syslog5424.Spec
