import Verif.Spec.Text
import Verif.Spec.Decimal
/-! # Specification: printable text, and the string literals of Go -/
namespace Syslog5424.Spec

/-- A Unicode scalar value. -/
def Scalar (r : Nat) : Prop := r < 0xD800 ∨ 0xE000 ≤ r ∧ r < 0x110000

/-- The UTF-8 encoding of a scalar value. -/
def utf8All (r : Nat) : Bytes :=
  if r < 0x10000 then utf8 r
  else [UInt8.ofNat (0xF0 + r / 262144), UInt8.ofNat (0x80 + r / 4096 % 64), UInt8.ofNat (0x80 + r / 64 % 64),
    UInt8.ofNat (0x80 + r % 64)]

/-- The control characters of Unicode (general category Cc): C0, DEL and C1. -/
def Control (r : Nat) : Prop := r < 32 ∨ 127 ≤ r ∧ r < 160

/-- Well formed UTF-8 without control characters: one line of text. -/
def Printable (text : Bytes) : Prop :=
  ∃ rs : List Nat, text = (rs.map utf8All).flatten ∧ ∀ r ∈ rs, Scalar r ∧ ¬ Control r

/-- A hexadecimal digit. -/
def IsHex (d : UInt8) : Prop :=
  48 ≤ d.toNat ∧ d.toNat ≤ 57 ∨ 97 ≤ d.toNat ∧ d.toNat ≤ 102 ∨ 65 ≤ d.toNat ∧ d.toNat ≤ 70

/-- The value of a hexadecimal digit. -/
def hexDigit (d : UInt8) : Nat :=
  if d.toNat ≤ 57 then d.toNat - 48 else if d.toNat ≤ 70 then d.toNat - 55 else d.toNat - 87

/-- The value of hexadecimal digits. -/
def hexVal (ds : Bytes) : Nat := ds.foldl (fun a d => a * 16 + hexDigit d) 0

/-- The single character escapes of Go, with their meaning (The Go Programming Language Specification, Rune literals
and String literals). -/
def simpleEscapes : List (UInt8 × UInt8) :=
  [(97, 7), (98, 8), (102, 12), (110, 10), (114, 13), (116, 9), (118, 11), (92, 92), (34, 34)]

/-- One piece of an interpreted string literal of Go, and the bytes it stands for. -/
inductive Piece : Bytes → Bytes → Prop
  | char {r : Nat} : Scalar r → r ≠ 10 → r ≠ 34 → r ≠ 92 → Piece (utf8All r) (utf8All r)
  | simple {c v : UInt8} : (c, v) ∈ simpleEscapes → Piece [92, c] [v]
  | byte {ds : Bytes} : ds.length = 2 → (∀ d ∈ ds, IsHex d) → Piece (b!"\\x" ++ ds) [UInt8.ofNat (hexVal ds)]
  | little {ds : Bytes} : ds.length = 4 → (∀ d ∈ ds, IsHex d) → Scalar (hexVal ds) →
      Piece (b!"\\u" ++ ds) (utf8All (hexVal ds))
  | big {ds : Bytes} : ds.length = 8 → (∀ d ∈ ds, IsHex d) → Scalar (hexVal ds) →
      Piece (b!"\\U" ++ ds) (utf8All (hexVal ds))

/-- What is between the double quotes of an interpreted string literal of Go, and the bytes it stands for. -/
inductive Inside : Bytes → Bytes → Prop
  | nil : Inside [] []
  | cons {u v t b : Bytes} : Piece u v → Inside t b → Inside (u ++ t) (v ++ b)

/-- `lit` is an interpreted string literal of Go that stands for `b`. -/
def Literal (lit b : Bytes) : Prop := ∃ t, lit = b!"\"" ++ t ++ b!"\"" ∧ Inside t b

/-- The line that reports a parse error: the bytes that were parsed as a string literal of Go, the position in decimal,
and the message. -/
def ErrorLine (text buffer : Bytes) (pos : Nat) (message : String) : Prop :=
  ∃ lit ds, Literal lit buffer ∧ IsDecimal pos ds ∧
    text = b!"{" ++ lit ++ b!"} " ++ ds ++ b!" " ++ message.toUTF8.data.toList

/-! ## the errors of the tokens of structured data -/

/-- Bytes that `NextSDValue` takes into a value: pairs that begin with `\`, and bytes other than `\`, `"` and `]`. -/
inductive ValueBytes : Bytes → Prop
  | nil : ValueBytes []
  | pair {c : UInt8} {r : Bytes} : ValueBytes r → ValueBytes (92 :: c :: r)
  | byte {c : UInt8} {r : Bytes} : c ≠ 92 → c ≠ 34 → c ≠ 93 → ValueBytes r → ValueBytes (c :: r)

end Syslog5424.Spec
