import Verif.Model.Helpers
import Verif.Spec.Text
/-! # Lemmas about sanitising and trimming -/
namespace Syslog5424

/-- To prove something for every byte, check the 256 bytes. -/
theorem forall_u8 {P : UInt8 → Prop} (h : ∀ n : Fin 256, P (UInt8.ofNat n.val)) : ∀ a, P a := by
  intro a
  have := h ⟨a.toNat, a.toNat_lt⟩
  simpa using this

theorem cleanByte_print (b : UInt8) : Spec.IsPrintUsAscii (cleanByte b) := by
  unfold cleanByte Spec.IsPrintUsAscii
  split
  · decide
  · next h =>
    simp only [not_or, UInt8.not_lt] at h
    have h1 := UInt8.le_iff_toNat_le.mp h.1
    have h2 := UInt8.le_iff_toNat_le.mp h.2
    simp at h1 h2; omega

theorem cleanByte_id {b : UInt8} (h : Spec.IsPrintUsAscii b) : cleanByte b = b := by
  unfold cleanByte
  rw [if_neg]
  simp only [not_or, UInt8.not_lt]
  exact ⟨UInt8.le_iff_toNat_le.mpr h.1, UInt8.le_iff_toNat_le.mpr h.2⟩

theorem validator_eq {d : Bytes} (h : d ≠ []) (n : Nat) : validatorGeneric d n = (d.take n).map cleanByte := by
  unfold validatorGeneric
  have : d.length ≠ 0 := by simpa using h
  simp only [this, if_false]
  split
  · rfl
  · next h2 =>
    rw [List.take_length, List.take_of_length_le (by omega)]

theorem validator_nil (n : Nat) : validatorGeneric [] n = b!"-" := rfl

theorem validator_valid (d : Bytes) {n : Nat} (hn : 0 < n) : Spec.ValidField n (validatorGeneric d n) := by
  by_cases h : d = []
  · subst h
    rw [validator_nil]
    refine ⟨by decide, by simp; omega, by simp [Spec.IsPrintUsAscii]⟩
  · rw [validator_eq h]
    have : 0 < d.length := List.length_pos_iff.mpr h
    refine ⟨by simp; omega, by simp; omega, ?_⟩
    intro b hb
    simp only [List.mem_map] at hb
    obtain ⟨a, _, rfl⟩ := hb
    exact cleanByte_print a

theorem validator_id {d : Bytes} {n : Nat} (h : Spec.ValidField n d) : validatorGeneric d n = d := by
  have hne : d ≠ [] := by rintro rfl; simp [Spec.ValidField] at h
  rw [validator_eq hne, List.take_of_length_le h.2.1]
  apply List.ext_getElem
  · simp
  · intro i h1 h2
    simp only [List.getElem_map]
    exact cleanByte_id (h.2.2 _ (List.getElem_mem h2))

/-! ## Trimming -/

theorem stripSpaceRev_some {r r' : Bytes} (h : stripSpaceRev r = some r') :
    ∃ c ∈ Spec.whiteSpace, r = (Spec.utf8 c).reverse ++ r' := by
  have one : ∀ a : UInt8, (9 ≤ a ∧ a ≤ 13) ∨ a = 32 → ∃ c ∈ Spec.whiteSpace, [a] = (Spec.utf8 c).reverse := by
    apply forall_u8; decide +kernel
  have two : ∀ a : UInt8, (a = 0x85 ∨ a = 0xA0) → ∃ c ∈ Spec.whiteSpace, [a, 0xC2] = (Spec.utf8 c).reverse := by
    apply forall_u8; decide +kernel
  have three1 : ∃ c ∈ Spec.whiteSpace, ([0x80, 0x9A, 0xE1] : Bytes) = (Spec.utf8 c).reverse := by decide +kernel
  have three2 : ∀ a : UInt8, ((0x80 ≤ a ∧ a ≤ 0x8A) ∨ a = 0xA8 ∨ a = 0xA9 ∨ a = 0xAF) →
      ∃ c ∈ Spec.whiteSpace, ([a, 0x80, 0xE2] : Bytes) = (Spec.utf8 c).reverse := by apply forall_u8; decide +kernel
  have three3 : ∃ c ∈ Spec.whiteSpace, ([0x9F, 0x81, 0xE2] : Bytes) = (Spec.utf8 c).reverse := by decide +kernel
  have three4 : ∃ c ∈ Spec.whiteSpace, ([0x80, 0x80, 0xE3] : Bytes) = (Spec.utf8 c).reverse := by decide +kernel
  unfold stripSpaceRev at h
  split at h
  · simp at h
  next a r1 =>
  split at h
  · next ha =>
    simp at h; subst h
    obtain ⟨c, hc, e⟩ := one a ha
    exact ⟨c, hc, by rw [← e]; rfl⟩
  split at h
  · simp at h
  next b r2 =>
  split at h
  · next hb =>
    simp at h; subst h
    obtain ⟨c, hc, e⟩ := two a hb.2
    exact ⟨c, hc, by rw [← e, hb.1]; rfl⟩
  split at h
  · simp at h
  next c r3 =>
  split at h
  · next hc =>
    simp at h; subst h
    rcases hc with ⟨rfl, rfl, rfl⟩ | ⟨rfl, rfl, ha⟩ | ⟨rfl, rfl, rfl⟩ | ⟨rfl, rfl, rfl⟩
    · obtain ⟨c, hc, e⟩ := three1; exact ⟨c, hc, by rw [← e]; rfl⟩
    · obtain ⟨c, hc, e⟩ := three2 a ha; exact ⟨c, hc, by rw [← e]; rfl⟩
    · obtain ⟨c, hc, e⟩ := three3; exact ⟨c, hc, by rw [← e]; rfl⟩
    · obtain ⟨c, hc, e⟩ := three4; exact ⟨c, hc, by rw [← e]; rfl⟩
  · simp at h

theorem stripSpaceRev_utf8 : ∀ c ∈ Spec.whiteSpace, ∀ r : Bytes,
    stripSpaceRev ((Spec.utf8 c).reverse ++ r) = some r := by
  intro c hc r
  simp only [Spec.whiteSpace, List.mem_cons, List.not_mem_nil, or_false] at hc
  rcases hc with rfl | rfl | rfl | rfl | rfl | rfl | rfl | rfl | rfl | rfl | rfl | rfl | rfl | rfl |
    rfl | rfl | rfl | rfl | rfl | rfl | rfl | rfl | rfl | rfl | rfl <;> rfl

theorem stripSpaceRev_none {r : Bytes} (h : stripSpaceRev r = none) : ¬ Spec.EndsWithSpace r.reverse := by
  rintro ⟨p, c, hc, e⟩
  have : r = (Spec.utf8 c).reverse ++ p.reverse := by
    have := congrArg List.reverse e
    simpa using this
  rw [this, stripSpaceRev_utf8 c hc] at h
  simp at h

theorem stripSpaceRev_length {r r' : Bytes} (h : stripSpaceRev r = some r') : r'.length < r.length := by
  obtain ⟨c, hc, rfl⟩ := stripSpaceRev_some h
  have : ∀ c ∈ Spec.whiteSpace, 0 < (Spec.utf8 c).length := by decide +kernel
  have := this c hc
  simp; omega

theorem trimRev_spec (fuel : Nat) (r : Bytes) (hf : r.length ≤ fuel) :
    (∃ ws : List Nat, (∀ c ∈ ws, c ∈ Spec.whiteSpace) ∧
      r.reverse = (trimRev fuel r).reverse ++ (ws.map Spec.utf8).flatten) ∧
    ¬ Spec.EndsWithSpace (trimRev fuel r).reverse := by
  induction fuel generalizing r with
  | zero =>
    have : r = [] := by simpa using hf
    subst this
    refine ⟨⟨[], by simp, by simp [trimRev]⟩, ?_⟩
    rintro ⟨p, c, hc, e⟩
    have : ∀ c ∈ Spec.whiteSpace, 0 < (Spec.utf8 c).length := by decide +kernel
    have := this c hc
    have := congrArg List.length e
    simp [trimRev] at this
    grind
  | succ fuel ih =>
    rw [trimRev]
    cases h : stripSpaceRev r with
    | none => exact ⟨⟨[], by simp, by simp⟩, stripSpaceRev_none h⟩
    | some r' =>
      simp only
      have hl := stripSpaceRev_length h
      obtain ⟨⟨ws, hws, e⟩, h2⟩ := ih r' (by omega)
      obtain ⟨c, hc, hr⟩ := stripSpaceRev_some h
      refine ⟨⟨ws ++ [c], ?_, ?_⟩, h2⟩
      · intro x hx
        simp only [List.mem_append, List.mem_singleton] at hx
        rcases hx with hx | rfl
        · exact hws x hx
        · exact hc
      · rw [hr]
        simp [e]

theorem trim_spec (s : Bytes) : Spec.IsTrimOf (trimRightSpace s) s := by
  have := trimRev_spec s.length s.reverse (by simp)
  simpa [trimRightSpace, Spec.IsTrimOf] using this

/-- A text that does not end with white space is its own trimmed form. -/
theorem trim_id {s : Bytes} (h : ¬ Spec.EndsWithSpace s) : trimRightSpace s = s := by
  obtain ⟨⟨ws, hws, e⟩, _⟩ := trim_spec s
  rcases List.eq_nil_or_concat ws with rfl | ⟨ws', c, rfl⟩
  · simpa using e.symm
  · exfalso
    apply h
    refine ⟨trimRightSpace s ++ (ws'.map Spec.utf8).flatten, c, hws c (by simp), ?_⟩
    simpa using e

/-- White space characters can be read back from the end in only one way. -/
theorem trim_append_space (s : Bytes) {c : Nat} (hc : c ∈ Spec.whiteSpace) :
    trimRightSpace (s ++ Spec.utf8 c) = trimRightSpace s := by
  have key : ∀ (fuel : Nat) (r : Bytes), r.length ≤ fuel → trimRev fuel r = trimRev r.length r := by
    intro fuel
    induction fuel using Nat.strongRecOn with
    | _ fuel ih =>
      intro r hr
      cases fuel with
      | zero =>
        have : r = [] := by simpa using hr
        subst this; rfl
      | succ fuel =>
        cases h : stripSpaceRev r with
        | none =>
          cases hl : r.length with
          | zero => simp [trimRev, h]
          | succ m => simp [trimRev, h]
        | some r' =>
          have hl := stripSpaceRev_length h
          obtain ⟨m, hm⟩ : ∃ m, r.length = m + 1 := ⟨r.length - 1, by omega⟩
          rw [hm]
          simp only [trimRev, h]
          rw [ih fuel (by omega) r' (by omega), ih m (by omega) r' (by omega)]
  unfold trimRightSpace
  have e : (s ++ Spec.utf8 c).reverse = (Spec.utf8 c).reverse ++ s.reverse := by simp
  rw [e]
  have hpos : ∀ c ∈ Spec.whiteSpace, 0 < (Spec.utf8 c).length := by decide +kernel
  have hpos := hpos c hc
  obtain ⟨m, hm⟩ : ∃ m, (s ++ Spec.utf8 c).length = m + 1 := ⟨(s ++ Spec.utf8 c).length - 1, by simp; omega⟩
  rw [hm]
  simp only [trimRev, stripSpaceRev_utf8 c hc]
  rw [key m s.reverse (by simp at hm ⊢; omega)]
  simp

theorem trim_unique {s t : Bytes} (h : Spec.IsTrimOf t s) : t = trimRightSpace s := by
  obtain ⟨⟨ws, hws, rfl⟩, hn⟩ := h
  have : ∀ ws : List Nat, (∀ c ∈ ws, c ∈ Spec.whiteSpace) →
      trimRightSpace (t ++ (ws.map Spec.utf8).flatten) = trimRightSpace t := by
    intro ws
    induction h : ws.reverse generalizing ws with
    | nil =>
      have : ws = [] := by simpa using h
      subst this; simp
    | cons c r ih =>
      have hd : ws = r.reverse ++ [c] := by
        have := congrArg List.reverse h; simpa using this
      subst hd
      intro hc
      have := trim_append_space (t ++ (r.reverse.map Spec.utf8).flatten) (hc c (by simp))
      simp only [List.map_append, List.flatten_append, List.map_cons, List.map_nil, List.flatten_cons,
        List.flatten_nil, List.append_nil]
      rw [← List.append_assoc, this]
      exact ih r.reverse (by simp) (fun x hx => hc x (by simp at hx ⊢; exact Or.inl hx))
  rw [this ws hws, trim_id hn]

end Syslog5424
