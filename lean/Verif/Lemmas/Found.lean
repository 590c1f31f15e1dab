import Verif.Lemmas.SData
import Verif.Lemmas.Text
/-! # Lemmas about the `Found` methods -/
namespace Syslog5424

theorem openElement_bracket (inner spare : Bytes) :
    openElement ⟨LBRK :: (inner ++ [RBRK]), spare⟩ = .ret (some ⟨inner, RBRK :: spare⟩) := by
  unfold openElement
  have h0 : (Slice.mk (LBRK :: (inner ++ [RBRK])) spare).at_ 0 = .ret LBRK := Slice.at_nat (i := 0) (by simp)
  have e : (((Slice.mk (LBRK :: (inner ++ [RBRK])) spare).len : Int) - 1) = ((inner.length + 1 : Nat) : Int) := by
    simp
  have h1 : (Slice.mk (LBRK :: (inner ++ [RBRK])) spare).at_ ((inner.length + 1 : Nat) : Int) = .ret RBRK :=
    Slice.at_nat (by simp)
  have h2 := Slice.sub_nat (s := Slice.mk (LBRK :: (inner ++ [RBRK])) spare) (i := 1) (j := inner.length + 1)
    (by omega) (by simp)
  rw [h0, e, h1, show (1 : Int) = ((1 : Nat) : Int) from rfl, h2]
  simp

theorem openElement_nil (spare : Bytes) : openElement ⟨[], spare⟩ = .panic := rfl

theorem openElement_other {data : Slice} (h0 : data.vis ≠ [])
    (h : ∀ inner, data.vis ≠ LBRK :: (inner ++ [RBRK])) : openElement data = .ret none := by
  obtain ⟨vis, spare⟩ := data
  simp only at h0 h
  cases vis with
  | nil => exact absurd rfl h0
  | cons a r =>
    have g0 : (Slice.mk (a :: r) spare).at_ 0 = .ret a := Slice.at_nat (i := 0) (by simp)
    have e : (((Slice.mk (a :: r) spare).len : Int) - 1) = ((r.length : Nat) : Int) := by simp
    unfold openElement
    rw [g0, e]
    simp only [Out.ret_bind]
    by_cases ha : a = LBRK
    · subst ha
      rcases List.eq_nil_or_concat r with rfl | ⟨r', b, rfl⟩
      · rfl
      · have hb : b ≠ RBRK := by rintro rfl; exact h r' (by simp)
        have g1 : (Slice.mk (LBRK :: (r' ++ [b])) spare).at_ (((r' ++ [b]).length : Nat) : Int) = .ret b :=
          Slice.at_nat (by simp)
        rw [← List.concat_eq_append] at g1
        rw [g1]
        simp [hb]
    · simp [ha]

/-- The three ways `openElement` behaves. -/
theorem openElement_cases (data : Slice) :
    (data.vis = [] ∧ openElement data = .panic) ∨
    (data.vis ≠ [] ∧ (∀ inner, data.vis ≠ LBRK :: (inner ++ [RBRK])) ∧ openElement data = .ret none) ∨
    (∃ inner, data.vis = LBRK :: (inner ++ [RBRK]) ∧
      openElement data = .ret (some ⟨inner, RBRK :: data.spare⟩)) := by
  by_cases h0 : data.vis = []
  · left
    refine ⟨h0, ?_⟩
    obtain ⟨v, s⟩ := data
    simp only at h0; subst h0; rfl
  · by_cases h : ∃ inner, data.vis = LBRK :: (inner ++ [RBRK])
    · right; right
      obtain ⟨inner, hi⟩ := h
      refine ⟨inner, hi, ?_⟩
      obtain ⟨v, s⟩ := data
      simp only at hi; subst hi
      exact openElement_bracket inner s
    · right; left
      have h' : ∀ inner, data.vis ≠ LBRK :: (inner ++ [RBRK]) := fun i hi => h ⟨i, hi⟩
      exact ⟨h0, h', openElement_other h0 h'⟩

/-! ## unknown -/

theorem unknownMarshal_eq (id : Bytes) (ps : List (Bytes × Bytes)) :
    unknownMarshal id ps = Spec.elementText id ps := by
  have : unknownParams ps = (ps.map fun p => b!" " ++ Spec.paramText p).flatten := by
    induction ps with
    | nil => rfl
    | cons p r ih => obtain ⟨k, v⟩ := p; simp [unknownParams, ih, Spec.paramText]
  simp [unknownMarshal, Spec.elementText, this]

theorem unknownFound_total (data : Slice) (h : data.vis ≠ []) : ∃ r, unknownFound data = .ret r := by
  unfold unknownFound
  rcases openElement_cases data with ⟨h0, _⟩ | ⟨_, _, ho⟩ | ⟨inner, _, ho⟩
  · exact absurd h0 h
  · rw [ho]; exact ⟨_, rfl⟩
  · rw [ho]
    simp only [Out.ret_bind]
    split
    · exact ⟨_, rfl⟩
    · next header d _ =>
      split
      · exact ⟨_, rfl⟩
      · obtain ⟨r, hr⟩ := unknownLoop_total (d.length + 1) [] d (by omega)
        simp only [hr, Out.ret_bind]
        cases r <;> exact ⟨_, rfl⟩

theorem spacedText_zero (ps : List (Bytes × Bytes)) :
    spacedText (ps.map fun p => (0, p)) = (ps.map fun p => b!" " ++ Spec.paramText p).flatten := by
  simp [spacedText, List.map_map, Function.comp_def]

theorem spacedText_length (l : List (Nat × Bytes × Bytes)) : l.length ≤ (spacedText l).length := by
  induction l with
  | nil => simp
  | cons p r ih =>
    have : spacedText (p :: r) = (List.replicate (p.1 + 1) SP ++ Spec.paramText p.2) ++ spacedText r := by
      simp [spacedText]
    rw [this]; simp; omega

/-- Decoding a well formed element with at least one parameter, whatever the number of spaces. -/
theorem unknownFound_spaced {id : Bytes} (hid : Spec.IsName id) (l : List (Nat × Bytes × Bytes))
    (hne : l ≠ []) (h : ∀ p ∈ l, (∀ c ∈ p.2.1, Spec.NameByte c) ∧ Spec.RawValue p.2.2)
    (hlast : (l.map (·.2)).getLast? ≠ some ([], [])) (spare : Bytes) :
    unknownFound ⟨LBRK :: (id ++ spacedText l ++ [RBRK]), spare⟩ = .ret (some (.unknown id (l.map (·.2)))) := by
  unfold unknownFound
  rw [openElement_bracket]
  simp only [Out.ret_bind]
  obtain ⟨q, hq⟩ : ∃ q, spacedText l = SP :: q := by
    cases l with
    | nil => exact absurd rfl hne
    | cons p r =>
      refine ⟨List.replicate p.1 SP ++ Spec.paramText p.2 ++ spacedText r, ?_⟩
      simp only [spacedText, List.map_cons, List.flatten_cons, List.replicate_succ, List.cons_append]
  have hlen : 4 ≤ (id ++ SP :: q).length := by
    rw [← hq]
    cases l with
    | nil => exact absurd rfl hne
    | cons p r =>
      simp [spacedText, Spec.paramText]; omega
  rw [hq, nextHeader_complete hid q hlen, ← hq]
  simp only
  have hpos : (spacedText l).length ≠ 0 := by rw [hq]; simp
  rw [if_neg hpos, unknownLoop_complete l h hlast [] _ (by have := spacedText_length l; omega)]
  simp

theorem unknownFound_sound {data : Slice} {sd : SD} (h : unknownFound data = .ret (some sd)) :
    ∃ id l, sd = .unknown id (l.map (·.2)) ∧ data.vis = LBRK :: (id ++ spacedText l ++ [RBRK]) ∧
      Spec.IsName id ∧ l ≠ [] ∧ (∀ p ∈ l, (∀ c ∈ p.2.1, Spec.NameByte c) ∧ Spec.RawValue p.2.2) ∧
      (l.map (·.2)).getLast? ≠ some ([], []) := by
  unfold unknownFound at h
  rcases openElement_cases data with ⟨_, ho⟩ | ⟨_, _, ho⟩ | ⟨inner, hv, ho⟩
  · rw [ho] at h; simp at h
  · rw [ho] at h; simp at h
  · rw [ho] at h
    simp only [Out.ret_bind] at h
    split at h
    · simp at h
    next header d hd =>
    obtain ⟨hn, e1, q, e2⟩ := nextHeader_sound hd
    rw [if_neg (by rw [e2]; simp)] at h
    obtain ⟨r, hr⟩ := unknownLoop_total (d.length + 1) [] d (by omega)
    rw [hr] at h
    simp only [Out.ret_bind] at h
    cases r with
    | none => simp at h
    | some m =>
      simp only [Out.pure_eq, Out.ret.injEq, Option.some.injEq] at h
      obtain ⟨l, e3, e4, hl⟩ := unknownLoop_sound hr
      refine ⟨header, l, ?_, ?_, hn, ?_, hl⟩
      · rw [← h, e4]; simp
      · rw [hv, e1, e3]
      · rintro rfl; rw [e2] at e3; simp [spacedText] at e3

/-! ## timeQuality -/

theorem tqLoop_total (fuel : Nat) (t : TimeQuality) (data : Bytes) (hf : data.length < fuel) :
    ∃ r, tqLoop fuel t data = .ret r := by
  induction fuel generalizing t data with
  | zero => omega
  | succ f ih =>
    rw [tqLoop]
    split
    · exact ⟨_, rfl⟩
    split
    · exact ⟨_, rfl⟩
    next d h1 =>
    split
    · exact ⟨_, rfl⟩
    next n s1 h2 =>
    split
    · exact ⟨_, rfl⟩
    next v s2 h3 =>
    split
    · exact ⟨_, rfl⟩
    obtain ⟨k, e3, _⟩ := readParam_sound h1 h2 h3
    apply ih
    have := congrArg List.length e3
    simp at this; omega

theorem tqName_length : (b!"timeQuality").length = 11 := rfl

/-- The visible bytes behind `data[0:n]` when the element is closed by `]`. -/
theorem header_match {inner spare name : Bytes} (hn : RBRK ∉ name)
    (h : ((inner ++ RBRK :: spare).take name.length) = name) : ∃ q, inner = name ++ q := by
  by_cases hl : name.length ≤ inner.length
  · rw [List.take_append_of_le_length hl] at h
    exact ⟨inner.drop name.length, by
      conv => rhs; arg 1; rw [← h]
      rw [List.take_append_drop]⟩
  · exfalso
    apply hn
    rw [← h]
    have : (inner ++ RBRK :: spare).take name.length =
        inner ++ (RBRK :: spare).take (name.length - inner.length) := by
      rw [List.take_append, List.take_of_length_le (by omega)]
    rw [this]
    obtain ⟨m, hm⟩ : ∃ m, name.length - inner.length = m + 1 := ⟨name.length - inner.length - 1, by omega⟩
    rw [hm]; simp

/-- `data[0:n]` with `n` up to the capacity. -/
theorem sub_zero_cap (s : Slice) (n : Nat) :
    s.sub 0 n = if n ≤ s.cap then .ret ⟨(s.vis ++ s.spare).take n, (s.vis ++ s.spare).drop n⟩ else .panic := by
  unfold Slice.sub
  by_cases h : n ≤ s.cap
  · rw [if_pos ⟨by omega, by omega, by omega⟩, if_pos h]; simp
  · rw [if_neg (by omega), if_neg h]

theorem tqFound_bracket (inner spare : Bytes) :
    tqFound ⟨LBRK :: (inner ++ [RBRK]), spare⟩ =
      if inner.length + 1 + spare.length < 11 then .panic
      else if inner.take 11 = b!"timeQuality" then
        (if inner.length = 11 then .ret (some (.tq ⟨false, false, none⟩))
        else
          match tqLoop (inner.length - 11 + 1) ⟨false, false, none⟩ (inner.drop 11) with
          | .ret none => .ret none
          | .ret (some t) => if t.isValid then .ret (some (.tq t)) else .ret none
          | .panic => .panic
          | .hang => .hang)
      else .ret none := by
  unfold tqFound
  rw [openElement_bracket]
  simp only [Out.ret_bind]
  have hs := sub_zero_cap ⟨inner, RBRK :: spare⟩ 11
  rw [show ((11 : Nat) : Int) = 11 from rfl] at hs
  rw [hs]
  by_cases hc : inner.length + 1 + spare.length < 11
  · rw [if_neg (by simp; omega), if_pos hc]; rfl
  · rw [if_pos (by simp; omega), if_neg hc]
    simp only [Out.ret_bind]
    by_cases hm : (inner ++ RBRK :: spare).take 11 = b!"timeQuality"
    · obtain ⟨q, rfl⟩ := header_match (name := b!"timeQuality") (by decide) hm
      rw [if_neg (by simp), if_pos (by simp)]
      have hf := Slice.from_nat (s := ⟨b!"timeQuality" ++ q, RBRK :: spare⟩) (i := 11) (by simp)
      rw [show ((11 : Nat) : Int) = 11 from rfl] at hf
      rw [hf]
      simp only [Out.ret_bind]
      have hd : (b!"timeQuality" ++ q).drop 11 = q := by simp
      rw [hd]
      by_cases hq : q = []
      · subst hq; rfl
      · have hq' : q.length ≠ 0 := by simpa using hq
        have hl : (b!"timeQuality" ++ q).length - 11 + 1 = q.length + 1 := by simp
        rw [if_neg (by simpa using hq), if_neg (by simp [hq]), hl]
        simp only [Slice.len_mk]
        obtain ⟨r, hr⟩ := tqLoop_total (q.length + 1) ⟨false, false, none⟩ q (by omega)
        rw [hr]
        simp only [Out.ret_bind]
        cases r with
        | none => rfl
        | some t => cases hv : t.isValid <;> simp [hv]
    · rw [if_pos hm, if_neg]
      · rfl
      · intro h
        apply hm
        have : 11 ≤ inner.length := by
          have := congrArg List.length h; simp at this; omega
        rw [List.take_append_of_le_length this, h]

theorem tqFound_total {data : Slice} (h : data.vis ≠ []) (hc : 12 ≤ data.cap) : ∃ r, tqFound data = .ret r := by
  rcases openElement_cases data with ⟨h0, _⟩ | ⟨_, _, ho⟩ | ⟨inner, hv, ho⟩
  · exact absurd h0 h
  · unfold tqFound; rw [ho]; exact ⟨_, rfl⟩
  · obtain ⟨v, s⟩ := data
    simp only at hv; subst hv
    rw [tqFound_bracket]
    simp only [Slice.cap, List.length_cons, List.length_append, List.length_nil] at hc
    rw [if_neg (by omega)]
    split
    · split
      · exact ⟨_, rfl⟩
      · obtain ⟨r, hr⟩ := tqLoop_total (inner.length - 11 + 1) ⟨false, false, none⟩ (inner.drop 11) (by simp)
        rw [hr]
        cases r with
        | none => exact ⟨_, rfl⟩
        | some t => simp only; split <;> exact ⟨_, rfl⟩
    · exact ⟨_, rfl⟩

end Syslog5424
