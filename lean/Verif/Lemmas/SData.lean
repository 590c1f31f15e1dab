import Verif.Model.SData
import Verif.Spec.SData
import Verif.Lemmas.Basic
/-! # Lemmas about the structured data tokenizer -/
namespace Syslog5424

theorem escape_eq (v : Bytes) : escape v = Spec.escaped v := by
  induction v with
  | nil => rfl
  | cons c r ih =>
    have e : Spec.escaped (c :: r) = Spec.escapeByte c ++ Spec.escaped r := by simp [Spec.escaped]
    rw [e, ← ih]
    simp only [escape, Spec.escapeByte]
    split <;> simp

/-! ## Values -/

theorem valueLoop_complete {v : Bytes} (h : Spec.RawValue v) (pre suf : Bytes) :
    nextSDValueLoop pre (v ++ DQ :: suf) = some (pre ++ v, suf) := by
  induction h generalizing pre with
  | nil => rw [List.nil_append, nextSDValueLoop.eq_def, List.append_nil]; rfl
  | byte h1 h2 h3 _ ih =>
    rw [List.cons_append, nextSDValueLoop.eq_def]
    simp [h1, h2, h3, ih]
  | escaped _ ih =>
    rw [List.cons_append, nextSDValueLoop.eq_def]
    simp [ih]

theorem valueLoop_sound {pre s x suf : Bytes} (h : nextSDValueLoop pre s = some (x, suf)) :
    ∃ v, Spec.RawValue v ∧ x = pre ++ v ∧ s = v ++ DQ :: suf := by
  induction hn : s.length using Nat.strongRecOn generalizing pre s with
  | _ n ih =>
    cases s with
    | nil => simp [nextSDValueLoop] at h
    | cons c r =>
      rw [nextSDValueLoop.eq_def] at h
      simp only at h
      split at h
      · next hc =>
        split at h
        · simp at h
        · next d r2 =>
          simp only [List.length_cons] at hn
          obtain ⟨v, hv, hx, hs⟩ := ih r2.length (by omega) h rfl
          refine ⟨BSL :: d :: v, .escaped hv, by simp [hx, hc], by simp [hs, hc]⟩
      · next hc =>
        split at h
        · simp at h
        · next hc2 =>
          split at h
          · next hc3 =>
            simp only [Option.some.injEq, Prod.mk.injEq] at h
            exact ⟨[], .nil, by simp [h.1], by simp [h.2, hc3]⟩
          · next hc3 =>
            simp only [List.length_cons] at hn
            obtain ⟨v, hv, hx, hs⟩ := ih r.length (by omega) h rfl
            exact ⟨c :: v, .byte hc3 hc hc2 hv, by simp [hx], by simp [hs]⟩

theorem nextSDValue_complete {v : Bytes} (h : Spec.RawValue v) (suf : Bytes) :
    nextSDValue (DQ :: (v ++ DQ :: suf)) = some (v, suf) := by
  have := valueLoop_complete h [] suf
  simp [nextSDValue, this]
  omega

theorem nextSDValue_sound {s x suf : Bytes} (h : nextSDValue s = some (x, suf)) :
    Spec.RawValue x ∧ s = DQ :: (x ++ DQ :: suf) := by
  unfold nextSDValue at h
  split at h
  · simp at h
  split at h
  · next c r =>
    split at h
    · simp at h
    · next hc =>
      obtain ⟨v, hv, hx, hs⟩ := valueLoop_sound h
      simp only [List.nil_append] at hx; subst hx
      refine ⟨hv, ?_⟩
      rw [hs, Decidable.not_not.mp hc]
  · simp at h

/-! ## Names -/

theorem nameByte_iff (c : UInt8) :
    Spec.NameByte c ↔ ¬ (c ≤ SP ∨ c = 127 ∨ c = RBRK ∨ c = DQ) ∧ c ≠ EQC := by
  unfold Spec.NameByte
  rw [UInt8.le_iff_toNat_le]
  simp only [not_or]
  constructor
  · rintro ⟨h1, h2, h3, h4, h5⟩
    exact ⟨⟨by show ¬ _ ≤ 32; omega, h3, h4, h5⟩, h2⟩
  · rintro ⟨⟨h1, h3, h4, h5⟩, h2⟩
    refine ⟨?_, h2, h3, h4, h5⟩
    have : ¬ c.toNat ≤ 32 := h1
    omega

theorem nameLoop_complete {n : Bytes} (h : ∀ c ∈ n, Spec.NameByte c) (pre suf : Bytes) :
    nextSDNameLoop pre (n ++ EQC :: suf) = some (pre ++ n, suf) := by
  induction n generalizing pre with
  | nil =>
    simp [nextSDNameLoop]
    decide
  | cons c r ih =>
    rw [List.cons_append, nextSDNameLoop]
    have hc := (nameByte_iff c).mp (h c (by simp))
    rw [if_neg hc.1, if_neg hc.2, ih (fun x hx => h x (by simp [hx]))]
    simp

theorem nameLoop_sound {pre s x suf : Bytes} (h : nextSDNameLoop pre s = some (x, suf)) :
    ∃ n, (∀ c ∈ n, Spec.NameByte c) ∧ x = pre ++ n ∧ s = n ++ EQC :: suf := by
  induction s generalizing pre with
  | nil => simp [nextSDNameLoop] at h
  | cons c r ih =>
    rw [nextSDNameLoop] at h
    split at h
    · simp at h
    · next hc =>
      split at h
      · next he =>
        simp only [Option.some.injEq, Prod.mk.injEq] at h
        exact ⟨[], by simp, by simp [h.1], by simp [h.2, he]⟩
      · next he =>
        obtain ⟨n, hn, hx, hs⟩ := ih h
        refine ⟨c :: n, ?_, by simp [hx], by simp [hs]⟩
        intro y hy
        simp only [List.mem_cons] at hy
        rcases hy with rfl | hy
        · exact (nameByte_iff _).mpr ⟨hc, he⟩
        · exact hn y hy

theorem nextSDName_complete {n : Bytes} (h : ∀ c ∈ n, Spec.NameByte c) (suf : Bytes)
    (hl : 4 ≤ (n ++ EQC :: suf).length) :
    nextSDName (n ++ EQC :: suf) = some (n, suf) := by
  unfold nextSDName
  rw [if_neg (by omega), nameLoop_complete h]
  simp

theorem nextSDName_sound {s x suf : Bytes} (h : nextSDName s = some (x, suf)) :
    (∀ c ∈ x, Spec.NameByte c) ∧ s = x ++ EQC :: suf := by
  unfold nextSDName at h
  split at h
  · simp at h
  · obtain ⟨n, hn, hx, hs⟩ := nameLoop_sound h
    simp at hx; subst hx
    exact ⟨hn, hs⟩

/-! ## Header -/

theorem headerByte_iff (c : UInt8) :
    Spec.NameByte c ↔ ¬ (c < SP ∨ c = EQC ∨ c = 127 ∨ c = RBRK ∨ c = DQ) ∧ c ≠ SP := by
  rw [nameByte_iff]
  grind

theorem headerLoop_complete {n : Bytes} (h : ∀ c ∈ n, Spec.NameByte c) (pre suf : Bytes) (hne : pre ++ n ≠ []) :
    nextHeaderLoop pre (n ++ SP :: suf) = some (pre ++ n, SP :: suf) := by
  induction n generalizing pre with
  | nil =>
    simp at hne
    simp only [List.nil_append, nextHeaderLoop]
    rw [if_neg (by decide), if_pos trivial, if_neg (by simpa using hne)]
    simp
  | cons c r ih =>
    rw [List.cons_append, nextHeaderLoop]
    have hc := (headerByte_iff c).mp (h c (by simp))
    rw [if_neg hc.1, if_neg hc.2, ih (fun x hx => h x (by simp [hx])) _ (by simp)]
    simp

theorem headerLoop_sound {pre s x rest : Bytes} (h : nextHeaderLoop pre s = some (x, rest)) :
    ∃ n q, (∀ c ∈ n, Spec.NameByte c) ∧ x = pre ++ n ∧ s = n ++ SP :: q ∧ rest = SP :: q ∧ x ≠ [] := by
  induction s generalizing pre with
  | nil => simp [nextHeaderLoop] at h
  | cons c r ih =>
    rw [nextHeaderLoop] at h
    split at h
    · simp at h
    · next hc =>
      split at h
      · next he =>
        split at h
        · simp at h
        · next hp =>
          simp only [Option.some.injEq, Prod.mk.injEq] at h
          refine ⟨[], r, by simp, by simp [h.1], by simp [he], ?_, ?_⟩
          · rw [← h.2, he]
          · rw [← h.1]; intro h0; exact hp (by simp [h0])
      · next he =>
        obtain ⟨n, q, hn, hx, hs, hr, hne⟩ := ih h
        refine ⟨c :: n, q, ?_, by simp [hx], by simp [hs], hr, hne⟩
        intro y hy
        simp only [List.mem_cons] at hy
        rcases hy with rfl | hy
        · exact (headerByte_iff _).mpr ⟨hc, he⟩
        · exact hn y hy

theorem nextHeader_complete {n : Bytes} (h : Spec.IsName n) (suf : Bytes)
    (hl : 4 ≤ (n ++ SP :: suf).length) :
    nextHeader (n ++ SP :: suf) = some (n, SP :: suf) := by
  unfold nextHeader
  rw [if_neg (by omega), headerLoop_complete h.2 [] suf (by simpa using h.1)]
  simp

theorem nextHeader_sound {s x rest : Bytes} (h : nextHeader s = some (x, rest)) :
    Spec.IsName x ∧ s = x ++ rest ∧ ∃ q, rest = SP :: q := by
  unfold nextHeader at h
  split at h
  · simp at h
  · obtain ⟨n, q, hn, hx, hs, hr, hne⟩ := headerLoop_sound h
    simp at hx; subst hx
    exact ⟨⟨hne, hn⟩, by rw [hs, hr], q, hr⟩

/-! ## Spaces -/

theorem nonSpaceLoop_sound {s r : Bytes} (h : nextNonSpaceLoop s = some r) :
    ∃ k, s = List.replicate k SP ++ r ∧ r ≠ [] ∧ r.head? ≠ some SP := by
  induction s with
  | nil => simp [nextNonSpaceLoop] at h
  | cons c q ih =>
    rw [nextNonSpaceLoop] at h
    split at h
    · next hc =>
      obtain ⟨k, h1, h2⟩ := ih h
      refine ⟨k + 1, ?_, h2⟩
      rw [List.replicate_succ, List.cons_append, ← h1, hc]
    · next hc =>
      simp at h; subst h
      exact ⟨0, by simp, by simp, by simp [hc]⟩

theorem nextNonSpace_sound {s r : Bytes} (h : nextNonSpace s = some r) :
    ∃ k, s = List.replicate (k + 1) SP ++ r ∧ r ≠ [] ∧ r.head? ≠ some SP := by
  unfold nextNonSpace at h
  split at h
  · simp at h
  · next c q =>
    split at h
    · simp at h
    · next hc =>
      obtain ⟨k, h1, h2, h3⟩ := nonSpaceLoop_sound h
      cases k with
      | zero =>
        simp at h1
        exfalso; apply h3; rw [← h1]; simp [Decidable.not_not.mp hc]
      | succ k => exact ⟨k, h1, h2, h3⟩

theorem nonSpaceLoop_complete (k : Nat) {r : Bytes} (h1 : r ≠ []) (h2 : r.head? ≠ some SP) :
    nextNonSpaceLoop (List.replicate k SP ++ r) = some r := by
  induction k with
  | zero =>
    cases r with
    | nil => exact absurd rfl h1
    | cons c q =>
      have : c ≠ SP := by intro h; exact h2 (by simp [h])
      simp [nextNonSpaceLoop, this]
  | succ k ih =>
    rw [List.replicate_succ, List.cons_append, nextNonSpaceLoop, if_pos rfl, ih]

theorem nextNonSpace_complete (k : Nat) {r : Bytes} (h1 : r ≠ []) (h2 : r.head? ≠ some SP) :
    nextNonSpace (List.replicate (k + 1) SP ++ r) = some r := by
  have := nonSpaceLoop_complete (k + 1) h1 h2
  rw [List.replicate_succ, List.cons_append] at this ⊢
  unfold nextNonSpace
  simpa using this

/-! ## Parameter lists -/

/-- Parameters with the number of extra spaces before each of them. -/
def spacedText (l : List (Nat × Bytes × Bytes)) : Bytes :=
  (l.map fun p => List.replicate (p.1 + 1) SP ++ Spec.paramText p.2).flatten

/-- Every byte string that starts with a parameter starts with a byte that is not a space. -/
theorem paramText_head {p : Bytes × Bytes} (h : ∀ c ∈ p.1, Spec.NameByte c) (r : Bytes) :
    (Spec.paramText p ++ r) ≠ [] ∧ (Spec.paramText p ++ r).head? ≠ some SP := by
  obtain ⟨n, v⟩ := p
  simp only [Spec.paramText]
  cases n with
  | nil => exact ⟨by simp, by simp; decide⟩
  | cons c q =>
    refine ⟨by simp, ?_⟩
    simp only [List.cons_append, List.head?_cons, ne_eq, Option.some.injEq]
    exact ((headerByte_iff c).mp (h c (by simp))).2

/-- One parameter is read from the input. -/
theorem readParam_loose {n v rest : Bytes} (hn : ∀ c ∈ n, Spec.NameByte c) (hv : Spec.RawValue v) (k : Nat)
    (hl : 4 ≤ (Spec.paramText (n, v) ++ rest).length) :
    ∃ d s1, nextNonSpace (List.replicate (k + 1) SP ++ Spec.paramText (n, v) ++ rest) = some d ∧
      nextSDName d = some (n, s1) ∧ nextSDValue s1 = some (v, rest) := by
  have hh := paramText_head (p := (n, v)) hn rest
  refine ⟨Spec.paramText (n, v) ++ rest, DQ :: (v ++ DQ :: rest), ?_, ?_, ?_⟩
  · rw [List.append_assoc]; exact nextNonSpace_complete k hh.1 hh.2
  · have e : Spec.paramText (n, v) ++ rest = n ++ EQC :: (DQ :: (v ++ DQ :: rest)) := by
      simp [Spec.paramText]
    rw [e] at hl ⊢
    exact nextSDName_complete hn _ hl
  · exact nextSDValue_complete hv rest

theorem readParam {n v rest : Bytes} (hn : Spec.IsName n) (hv : Spec.RawValue v) (k : Nat) :
    ∃ d s1, nextNonSpace (List.replicate (k + 1) SP ++ Spec.paramText (n, v) ++ rest) = some d ∧
      nextSDName d = some (n, s1) ∧ nextSDValue s1 = some (v, rest) := by
  have : 0 < n.length := List.length_pos_iff.mpr hn.1
  exact readParam_loose hn.2 hv k (by simp [Spec.paramText]; omega)

/-- What reading a parameter says about the input. -/
theorem readParam_sound {data d s1 n v rest : Bytes} (h1 : nextNonSpace data = some d)
    (h2 : nextSDName d = some (n, s1)) (h3 : nextSDValue s1 = some (v, rest)) :
    ∃ k, data = List.replicate (k + 1) SP ++ Spec.paramText (n, v) ++ rest ∧
      (∀ c ∈ n, Spec.NameByte c) ∧ Spec.RawValue v := by
  obtain ⟨k, e1, _⟩ := nextNonSpace_sound h1
  obtain ⟨hn, e2⟩ := nextSDName_sound h2
  obtain ⟨hv, e3⟩ := nextSDValue_sound h3
  refine ⟨k, ?_, hn, hv⟩
  rw [e1, e2, e3]; simp [Spec.paramText]

theorem unknownLoop_complete (l : List (Nat × Bytes × Bytes))
    (h : ∀ p ∈ l, (∀ c ∈ p.2.1, Spec.NameByte c) ∧ Spec.RawValue p.2.2) (hlast : (l.map (·.2)).getLast? ≠ some ([], []))
    (acc : List (Bytes × Bytes)) (fuel : Nat) (hf : l.length < fuel) :
    unknownLoop fuel acc (spacedText l) = .ret (some (acc ++ l.map (·.2))) := by
  induction l generalizing acc fuel with
  | nil =>
    obtain ⟨f, rfl⟩ : ∃ f, fuel = f + 1 := ⟨fuel - 1, by simp at hf; omega⟩
    simp [unknownLoop, spacedText]
  | cons p r ih =>
    obtain ⟨k, n, v⟩ := p
    obtain ⟨f, rfl⟩ : ∃ f, fuel = f + 1 := ⟨fuel - 1, by simp at hf; omega⟩
    have hp := h (k, n, v) (by simp)
    have e : spacedText ((k, n, v) :: r) = List.replicate (k + 1) SP ++ Spec.paramText (n, v) ++ spacedText r := by
      simp [spacedText]
    have hlen : 4 ≤ (Spec.paramText (n, v) ++ spacedText r).length := by
      cases r with
      | nil =>
        have : n ≠ [] ∨ v ≠ [] := by
          by_cases hn : n = []
          · right; rintro rfl; subst hn; exact hlast rfl
          · exact .inl hn
        rcases this with h | h
        · have := List.length_pos_iff.mpr h
          simp [Spec.paramText]; omega
        · have := List.length_pos_iff.mpr h
          simp [Spec.paramText]; omega
      | cons q r => simp [Spec.paramText, spacedText]; omega
    obtain ⟨d, s1, h1, h2, h3⟩ := readParam_loose hp.1 hp.2 k hlen
    rw [e, unknownLoop, h1]
    simp only [h2, h3]
    rw [if_neg (by simp), ih (fun q hq => h q (by simp [hq])) ?_ _ f (by simp at hf; omega)]
    · simp
    · cases r with
      | nil => simp
      | cons q r => simpa using hlast

theorem unknownLoop_sound {fuel : Nat} {acc m : List (Bytes × Bytes)} {data : Bytes}
    (h : unknownLoop fuel acc data = .ret (some m)) :
    ∃ l : List (Nat × Bytes × Bytes), data = spacedText l ∧ m = acc ++ l.map (·.2) ∧
      (∀ p ∈ l, (∀ c ∈ p.2.1, Spec.NameByte c) ∧ Spec.RawValue p.2.2) ∧ (l.map (·.2)).getLast? ≠ some ([], []) := by
  induction fuel generalizing acc data with
  | zero => simp [unknownLoop] at h
  | succ f ih =>
    rw [unknownLoop] at h
    split at h
    · next h0 =>
      have : data = [] := by simpa using h0
      simp at h
      exact ⟨[], by simp [this, spacedText], by simp [h], by simp, by simp⟩
    · split at h
      · simp at h
      next d h1 =>
      split at h
      · simp at h
      next n s1 h2 =>
      split at h
      · simp at h
      next v s2 h3 =>
      obtain ⟨l, e1, e2, hl, hlast⟩ := ih h
      obtain ⟨k, e3, hn, hv⟩ := readParam_sound h1 h2 h3
      refine ⟨(k, n, v) :: l, ?_, ?_, ?_, ?_⟩
      · rw [e3, e1]; simp [spacedText]
      · rw [e2]; simp
      · intro p hp
        simp only [List.mem_cons] at hp
        rcases hp with rfl | hp
        · exact ⟨hn, hv⟩
        · exact hl p hp
      · cases l with
        | cons q l => simpa using hlast
        | nil =>
          simp only [List.map_cons, List.map_nil, List.getLast?_singleton, ne_eq, Option.some.injEq, Prod.mk.injEq, not_and]
          rintro rfl rfl
          have hd : 4 ≤ d.length := by
            unfold nextSDName at h2
            split at h2
            · simp at h2
            · omega
          have g1 := (nextSDName_sound h2).2
          have g2 := (nextSDValue_sound h3).2
          rw [e1] at g2
          rw [g1, g2] at hd
          simp [spacedText] at hd

/-- The loop always ends: it consumes at least one byte per turn. -/
theorem unknownLoop_total (fuel : Nat) (acc : List (Bytes × Bytes)) (data : Bytes) (hf : data.length < fuel) :
    ∃ r, unknownLoop fuel acc data = .ret r := by
  induction fuel generalizing acc data with
  | zero => omega
  | succ f ih =>
    rw [unknownLoop]
    split
    · exact ⟨_, rfl⟩
    split
    · exact ⟨_, rfl⟩
    next d h1 =>
    split
    · exact ⟨_, rfl⟩
    next n s1 h2 =>
    split
    · exact ⟨_, rfl⟩
    next v s2 h3 =>
    obtain ⟨k, e3, _⟩ := readParam_sound h1 h2 h3
    apply ih
    have := congrArg List.length e3
    simp at this; omega

end Syslog5424
