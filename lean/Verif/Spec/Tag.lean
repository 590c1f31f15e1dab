import Verif.Model.Utf8
import Verif.Spec.Literal
/-! # Specification: the names accepted in a struct tag -/
namespace Syslog5424.Spec

/-- ASCII characters allowed in a tag name: printable ASCII except `"`, `'`, `,`, `;`, `\` and the back quote. -/
def TagChar (c : UInt8) : Prop :=
  32 ≤ c.toNat ∧ c.toNat ≤ 126 ∧ c ≠ 34 ∧ c ≠ 39 ∧ c ≠ 44 ∧ c ≠ 59 ∧ c ≠ 92 ∧ c ≠ 96

instance (c : UInt8) : Decidable (TagChar c) := inferInstanceAs (Decidable (_ ∧ _))

/-- The letters of Latin-1 beyond ASCII: ª, µ, º, and À to ÿ but × and ÷. -/
def LatinLetter (r : Nat) : Prop := r = 0xAA ∨ r = 0xB5 ∨ r = 0xBA ∨ 0xC0 ≤ r ∧ r ≤ 0xFF ∧ r ≠ 0xD7 ∧ r ≠ 0xF7

/-- Characters allowed in a tag name: the ASCII ones above, and the letters and digits of Unicode (those beyond Latin-1
are as the library says, but for U+FFFD which is none). -/
def TagRune (r : Nat) : Prop :=
  r < 128 ∧ TagChar (UInt8.ofNat r) ∨ LatinLetter r ∨ 0x100 ≤ r ∧ r ≠ 0xFFFD ∧ letterOrDigitAbove r = true

/-- A valid tag name: not empty, UTF-8, of these characters only. -/
def TagName (s : Bytes) : Prop :=
  s ≠ [] ∧ ∃ rs : List Nat, s = (rs.map utf8All).flatten ∧ ∀ r ∈ rs, Scalar r ∧ TagRune r

end Syslog5424.Spec
