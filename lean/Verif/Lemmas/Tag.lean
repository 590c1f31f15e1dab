import Verif.Spec.Tag
import Verif.Model.SDEncoder
import Verif.Lemmas.Utf8
/-! # Lemmas: `isValidTag` accepts exactly the tag names -/
namespace Syslog5424
open Spec

theorem forall_lt_128 {p : Nat → Prop} (h : ∀ r : Fin 128, p r.val) (r : Nat) (hr : r < 128) : p r := h ⟨r, hr⟩

theorem validTagRune_iff (r : Nat) : validTagRune r = true ↔ TagRune r := by
  by_cases h : r < 128
  · have : ∀ r : Nat, r < 128 → (validTagRune r = true ↔ TagChar (UInt8.ofNat r)) := by
      apply forall_lt_128; decide +kernel
    rw [this r h]
    unfold TagRune LatinLetter
    constructor
    · exact fun hh => Or.inl ⟨h, hh⟩
    · rintro (⟨_, hh⟩ | hh | hh)
      · exact hh
      · omega
      · omega
  · have hn : ((b!"!#$%&()*+-./:<=>?@[]^_{|}~ ").map (·.toNat)).contains r = false := by
      simp only [List.contains_eq_mem, decide_eq_false_iff_not]
      intro hm
      have : ∀ x ∈ ((b!"!#$%&()*+-./:<=>?@[]^_{|}~ ").map (·.toNat)), x < 128 := by decide +kernel
      exact h (this r hm)
    unfold validTagRune isLetterOrDigit TagRune LatinLetter
    rw [hn, if_neg h]
    by_cases h2 : r ≤ 0xFF
    · rw [if_pos h2]
      simp only [Bool.false_or, Bool.or_eq_true, beq_iff_eq, Bool.and_eq_true, decide_eq_true_eq, bne_iff_ne, ne_eq]
      omega
    · rw [if_neg h2]
      simp only [Bool.false_or, Bool.and_eq_true, bne_iff_ne, ne_eq]
      constructor
      · rintro ⟨a, b⟩; exact Or.inr (Or.inr ⟨by omega, a, b⟩)
      · rintro (⟨a, _⟩ | a | ⟨_, a, b⟩)
        · omega
        · omega
        · exact ⟨a, b⟩

theorem tagLoop_skip (k : Nat) (s : Bytes) : tagLoop k s = tagLoop 0 (s.drop k) := by
  induction s generalizing k with
  | nil => simp [tagLoop]
  | cons c s ih =>
    cases k with
    | zero => rfl
    | succ k => rw [tagLoop, ih]; rfl

theorem not_tag_fffd : validTagRune 0xFFFD = false := by
  have : ¬ TagRune 0xFFFD := by unfold TagRune LatinLetter; omega
  cases h : validTagRune 0xFFFD with
  | false => rfl
  | true => exact absurd ((validTagRune_iff _).mp h) this

theorem utf8All_ne_nil (r : Nat) : utf8All r ≠ [] := by
  unfold utf8All utf8; repeat' split
  all_goals simp

theorem tagLoop_sound : ∀ (n : Nat) (s : Bytes), s.length = n → tagLoop 0 s = true →
    ∃ rs : List Nat, s = (rs.map utf8All).flatten ∧ ∀ r ∈ rs, Scalar r ∧ TagRune r := by
  intro n
  induction n using Nat.strongRecOn with
  | ind n ih =>
    intro s hn h
    cases s with
    | nil => exact ⟨[], rfl, by simp⟩
    | cons c s =>
      simp only [tagLoop, Bool.and_eq_true] at h
      rw [tagLoop_skip] at h
      have hd : decodeRune (c :: s) ≠ (0xFFFD, 1) := by
        intro hd; rw [hd] at h; simp [not_tag_fffd] at h
      obtain ⟨hs, he⟩ := decodeRune_spec c s hd
      obtain ⟨rs, h1, h2⟩ := ih (s.drop ((decodeRune (c :: s)).2 - 1)).length (by subst hn; simp; omega) _ rfl h.2
      refine ⟨(decodeRune (c :: s)).1 :: rs, ?_, ?_⟩
      · rw [List.map_cons, List.flatten_cons, ← h1, he]
      · intro r hr
        rcases List.mem_cons.mp hr with rfl | hr
        · exact ⟨hs, (validTagRune_iff _).mp h.1⟩
        · exact h2 r hr

theorem isValidTag_iff (s : Bytes) : isValidTag s = true ↔ TagName s := by
  unfold isValidTag TagName
  simp only [Bool.and_eq_true, decide_eq_true_eq]
  refine and_congr_right fun hne => ⟨tagLoop_sound _ s rfl, ?_⟩
  clear hne
  rintro ⟨rs, rfl, h⟩
  induction rs with
  | nil => rfl
  | cons r rs ih =>
    have hr := h r (by simp)
    have ih := ih fun x hx => h x (by simp [hx])
    obtain ⟨c, t, hc⟩ := List.exists_cons_of_ne_nil (utf8All_ne_nil r)
    have hd := decodeRune_utf8All r (rs.map utf8All).flatten hr.1
    rw [List.map_cons, List.flatten_cons]
    rw [hc] at hd ⊢
    simp only [List.cons_append] at hd ⊢
    simp only [tagLoop, hd, Bool.and_eq_true]
    refine ⟨(validTagRune_iff r).mpr hr.2, ?_⟩
    rw [tagLoop_skip]
    simpa using ih

theorem utf8All_high {r : Nat} (hs : Scalar r) (h : 128 ≤ r) : ∀ c ∈ utf8All r, 128 ≤ c.toNat := by
  unfold Scalar at hs
  have hf : ∀ n : Nat, 128 ≤ n → n < 256 → 128 ≤ (UInt8.ofNat n).toNat := fun n h1 hn => by
    rw [UInt8.toNat_ofNat']; omega
  unfold utf8All utf8
  rw [if_neg (show ¬ r < 128 by omega)]
  intro c
  split
  · split
    · simp only [List.mem_cons, List.not_mem_nil, or_false]
      rintro (rfl | rfl) <;> exact hf _ (by omega) (by omega)
    · simp only [List.mem_cons, List.not_mem_nil, or_false]
      rintro (rfl | rfl | rfl) <;> exact hf _ (by omega) (by omega)
  · simp only [List.mem_cons, List.not_mem_nil, or_false]
    rintro (rfl | rfl | rfl | rfl) <;> exact hf _ (by omega) (by omega)

theorem Spec.TagName.no_comma {s : Bytes} (h : TagName s) : (44 : UInt8) ∉ s := by
  obtain ⟨_, rs, rfl, h⟩ := h
  intro hm
  obtain ⟨l, hl, hc⟩ := List.mem_flatten.mp hm
  obtain ⟨r, hr, rfl⟩ := List.mem_map.mp hl
  obtain ⟨hs, ht⟩ := h r hr
  by_cases h8 : r < 128
  · rcases ht with ⟨_, ht⟩ | ht | ht
    · rw [utf8All_ascii h8, List.mem_singleton] at hc
      rw [← hc] at ht
      exact ht.2.2.2.2.1 rfl
    · unfold LatinLetter at ht; omega
    · omega
  · exact absurd (utf8All_high hs (by omega) _ hc) (by decide)

instance (s : Bytes) : Decidable (TagName s) := decidable_of_iff _ (isValidTag_iff s)

/-- Names of ASCII characters. -/
theorem tagName_of_ascii {s : Bytes} (hne : s ≠ []) (h : ∀ c ∈ s, TagChar c) : TagName s := by
  refine ⟨hne, s.map (·.toNat), ?_, ?_⟩
  · have : ∀ c ∈ s, utf8All c.toNat = [c] := by
      intro c hc
      have := (h c hc).2.1
      rw [utf8All_ascii (by omega), UInt8.ofNat_toNat]
    rw [List.map_map]
    clear h hne
    induction s with
    | nil => rfl
    | cons c s ih =>
      rw [List.map_cons, List.flatten_cons, ← ih fun x hx => this x (by simp [hx])]
      simp [this c (by simp)]
  · intro r hr
    obtain ⟨c, hc, rfl⟩ := List.mem_map.mp hr
    have := (h c hc).2.1
    exact ⟨by unfold Scalar; omega, Or.inl ⟨by omega, by rw [UInt8.ofNat_toNat]; exact h c hc⟩⟩

end Syslog5424
