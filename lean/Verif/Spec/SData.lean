import Verif.Go
/-! # Specification: structured data elements (RFC 5424 section 6.3) -/
namespace Syslog5424.Spec

/-- Bytes of a name: no control character, space, `=`, `]`, `"` or DEL. (The RFC also excludes bytes
above 126 and limits names to 32 bytes, see `IsSdName`.) -/
def NameByte (c : UInt8) : Prop := 32 < c.toNat ∧ c ≠ 61 ∧ c ≠ 127 ∧ c ≠ 93 ∧ c ≠ 34

instance (c : UInt8) : Decidable (NameByte c) := inferInstanceAs (Decidable (_ ∧ _))

/-- A non-empty name. -/
def IsName (s : Bytes) : Prop := s ≠ [] ∧ ∀ c ∈ s, NameByte c

instance (s : Bytes) : Decidable (IsName s) := inferInstanceAs (Decidable (_ ∧ _))

/-- SD-NAME of the RFC: 1 to 32 PRINTUSASCII bytes except `=`, SP, `]`, `"`. -/
def IsSdName (s : Bytes) : Prop :=
  1 ≤ s.length ∧ s.length ≤ 32 ∧ ∀ c ∈ s, 33 ≤ c.toNat ∧ c.toNat ≤ 126 ∧ c ≠ 61 ∧ c ≠ 93 ∧ c ≠ 34

instance (s : Bytes) : Decidable (IsSdName s) := inferInstanceAs (Decidable (_ ∧ _))

theorem IsSdName.isName {s : Bytes} (h : IsSdName s) : IsName s := by
  refine ⟨?_, ?_⟩
  · rintro rfl; exact absurd h.1 (by decide)
  · intro c hc
    obtain ⟨h1, h2, h3, h4, h5⟩ := h.2.2 c hc
    refine ⟨by omega, h3, ?_, h4, h5⟩
    rintro rfl; exact absurd h2 (by decide)

/-- The bytes between the quotes of a parameter: `"` and `]` only appear behind a backslash, and a
backslash is never the last byte. -/
inductive RawValue : Bytes → Prop
  | nil : RawValue []
  | byte {c : UInt8} {r : Bytes} : c ≠ 34 → c ≠ 92 → c ≠ 93 → RawValue r → RawValue (c :: r)
  | escaped {c : UInt8} {r : Bytes} : RawValue r → RawValue (92 :: c :: r)

/-- Escaping of one byte. -/
def escapeByte (c : UInt8) : Bytes := if c = 34 ∨ c = 92 ∨ c = 93 then [92, c] else [c]

/-- The escaped form of a value. -/
def escaped (v : Bytes) : Bytes := v.flatMap escapeByte

/-- Removing the escapes: a backslash stands for the byte that follows it. -/
def unescape : Bytes → Bytes
  | [] => []
  | c :: r =>
    if c = 92 then
      match r with
      | [] => [92]
      | d :: r2 => d :: unescape r2
    else c :: unescape r

/-- `name="raw"` -/
def paramText (p : Bytes × Bytes) : Bytes := p.1 ++ b!"=\"" ++ p.2 ++ b!"\""

/-- `[id name="raw" name="raw"...]` with single spaces. -/
def elementText (id : Bytes) (params : List (Bytes × Bytes)) : Bytes :=
  b!"[" ++ id ++ (params.map fun p => b!" " ++ paramText p).flatten ++ b!"]"

/-- A well formed element. (RFC 5424 also asks for names of parameters that are not empty; here this is only asked of a
last parameter with an empty value.) -/
def WellFormed (id : Bytes) (params : List (Bytes × Bytes)) : Prop :=
  IsName id ∧ (∀ p ∈ params, (∀ c ∈ p.1, NameByte c) ∧ RawValue p.2) ∧ params.getLast? ≠ some ([], [])

theorem wellFormed_of_names {id : Bytes} {params : List (Bytes × Bytes)} (h1 : IsName id) (h2 : ∀ p ∈ params, IsName p.1 ∧ RawValue p.2) :
    WellFormed id params :=
  ⟨h1, fun p hp => ⟨(h2 p hp).1.2, (h2 p hp).2⟩, fun h => (h2 _ (List.mem_of_getLast? h)).1.1 rfl⟩

theorem rawValue_escaped (v : Bytes) : RawValue (escaped v) := by
  induction v with
  | nil => exact .nil
  | cons c r ih =>
    have e : escaped (c :: r) = escapeByte c ++ escaped r := by simp [escaped]
    rw [e]; unfold escapeByte
    split
    · exact .escaped ih
    · next h =>
      simp only [not_or] at h
      exact .byte h.1 h.2.1 h.2.2 ih

theorem unescape_escaped (v : Bytes) : unescape (escaped v) = v := by
  induction v with
  | nil => rfl
  | cons c r ih =>
    have e : escaped (c :: r) = escapeByte c ++ escaped r := by simp [escaped]
    rw [e]; unfold escapeByte
    split
    · simp [unescape, ih]
    · next h =>
      simp only [not_or] at h
      show unescape (c :: escaped r) = _
      unfold unescape
      simp [h.2.1, ih]

end Syslog5424.Spec
