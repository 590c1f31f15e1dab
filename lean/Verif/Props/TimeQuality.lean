import Verif.Props.SData
import Verif.Spec.TimeQuality
import Mathlib.Data.List.Induction
/-! # C23: what the timeQuality decoder accepts, and what it reads -/
namespace Syslog5424
open Spec

theorem all_isDigit (ds : Bytes) : ds.all isDigit = true ↔ ∀ d ∈ ds, IsDigit d := by
  simp only [List.all_eq_true, isDigit_iff]

theorem atoi_minus (r : Bytes) : atoi (45 :: r) =
    if r ≠ [] ∧ (∀ d ∈ r, IsDigit d) ∧ value r ≤ 2 ^ 63 then some (-(value r : Int)) else none := by
  have h : atoi (45 :: r) = if r.isEmpty || !r.all isDigit then none
      else if decVal r ≤ 2 ^ 63 then some (-(decVal r : Int)) else none := rfl
  rw [h, decVal_eq_value]
  by_cases h1 : r = []
  · subst h1; simp
  by_cases h2 : r.all isDigit = true
  · rw [if_neg (by simp only [h2]; simpa using h1)]
    by_cases h3 : value r ≤ 2 ^ 63
    · rw [if_pos h3, if_pos ⟨h1, (all_isDigit r).mp h2, h3⟩]
    · rw [if_neg h3, if_neg (fun h => h3 h.2.2)]
  · rw [if_pos (by simp only [Bool.not_eq_true] at h2; simp [h2]), if_neg (fun h => h2 ((all_isDigit r).mpr h.2.1))]

theorem atoi_unsigned (r : Bytes) : (if r.isEmpty || !r.all isDigit then none
      else if decVal r < 2 ^ 63 then some (decVal r : Int) else none) =
    if r ≠ [] ∧ (∀ d ∈ r, IsDigit d) ∧ value r < 2 ^ 63 then some (value r : Int) else none := by
  rw [decVal_eq_value]
  by_cases h1 : r = []
  · subst h1; simp
  by_cases h2 : r.all isDigit = true
  · rw [if_neg (by simp only [h2]; simpa using h1)]
    by_cases h3 : value r < 2 ^ 63
    · rw [if_pos h3, if_pos ⟨h1, (all_isDigit r).mp h2, h3⟩]
    · rw [if_neg h3, if_neg (fun h => h3 h.2.2)]
  · rw [if_pos (by simp only [Bool.not_eq_true] at h2; simp [h2]), if_neg (fun h => h2 ((all_isDigit r).mpr h.2.1))]

theorem atoi_plus (r : Bytes) : atoi (43 :: r) =
    if r ≠ [] ∧ (∀ d ∈ r, IsDigit d) ∧ value r < 2 ^ 63 then some (value r : Int) else none := by
  rw [← atoi_unsigned]; rfl

theorem atoi_other {s : Bytes} (h45 : s.head? ≠ some 45) (h43 : s.head? ≠ some 43) : atoi s =
    if s ≠ [] ∧ (∀ d ∈ s, IsDigit d) ∧ value s < 2 ^ 63 then some (value s : Int) else none := by
  rw [← atoi_unsigned]
  have b45 : (s.head? == some 45) = false := by simpa using h45
  have b43 : (s.head? == some 43) = false := by simpa using h43
  unfold atoi
  simp only [b45, b43, Bool.or_self, Bool.false_eq_true, if_false]

/-- `strconv.Atoi` reads exactly the decimal integers that fit. -/
theorem atoi_iff (s : Bytes) (v : Int) : atoi s = some v ↔ IntText s v := by
  have hd0 : ¬ IsDigit 45 := by decide
  have hd1 : ¬ IsDigit 43 := by decide
  constructor
  · intro h
    by_cases h45 : s.head? = some 45
    · obtain ⟨r, rfl⟩ : ∃ r, s = 45 :: r := by cases s <;> simp_all
      rw [atoi_minus] at h
      split at h
      · next hc =>
        simp only [Option.some.injEq] at h
        exact ⟨b!"-", r, rfl, hc.1, hc.2.1, .inr ⟨rfl, h.symm, by omega⟩⟩
      · simp at h
    by_cases h43 : s.head? = some 43
    · obtain ⟨r, rfl⟩ : ∃ r, s = 43 :: r := by cases s <;> simp_all
      rw [atoi_plus] at h
      split at h
      · next hc =>
        simp only [Option.some.injEq] at h
        exact ⟨b!"+", r, rfl, hc.1, hc.2.1, .inl ⟨.inr rfl, h.symm, by omega⟩⟩
      · simp at h
    rw [atoi_other h45 h43] at h
    split at h
    · next hc =>
      simp only [Option.some.injEq] at h
      exact ⟨[], s, rfl, hc.1, hc.2.1, .inl ⟨.inl rfl, h.symm, by omega⟩⟩
    · simp at h
  · rintro ⟨sign, ds, rfl, hne, hdig, ⟨rfl | rfl, hv, hlt⟩ | ⟨rfl, hv, hle⟩⟩
    · have hb45 : ds.head? ≠ some 45 := by
        match ds, hne, hdig with
        | c :: r, _, hdig => simp; rintro rfl; exact hd0 (hdig _ (by simp))
      have hb43 : ds.head? ≠ some 43 := by
        match ds, hne, hdig with
        | c :: r, _, hdig => simp; rintro rfl; exact hd1 (hdig _ (by simp))
      rw [List.nil_append, atoi_other hb45 hb43, if_pos ⟨hne, hdig, by omega⟩, hv]
    · refine (atoi_plus ds).trans ?_
      rw [if_pos ⟨hne, hdig, by omega⟩, hv]
    · refine (atoi_minus ds).trans ?_
      rw [if_pos ⟨hne, hdig, by omega⟩, hv]

/-- Assignments of a list of parameters. -/
def tqFold (t : TimeQuality) : List (Bytes × Bytes) → Option TimeQuality
  | [] => some t
  | p :: r => match tqAssign t p.1 p.2 with
    | none => none
    | some t => tqFold t r

theorem tqFold_snoc (t : TimeQuality) (ps : List (Bytes × Bytes)) (p : Bytes × Bytes) :
    tqFold t (ps ++ [p]) = match tqFold t ps with | none => none | some t => tqAssign t p.1 p.2 := by
  induction ps generalizing t with
  | nil => simp only [List.nil_append, tqFold]; cases tqAssign t p.1 p.2 <;> rfl
  | cons q r ih => simp only [List.cons_append, tqFold]; cases tqAssign t q.1 q.2 <;> simp [ih]

theorem tqLoop_sound {fuel : Nat} {t t' : TimeQuality} {data : Bytes} (h : tqLoop fuel t data = .ret (some t')) :
    ∃ l : List (Nat × Bytes × Bytes), data = spacedParams l ∧ tqFold t (l.map (·.2)) = some t' := by
  induction fuel generalizing t data with
  | zero => simp [tqLoop] at h
  | succ f ih =>
    rw [tqLoop] at h
    split at h
    · next h0 =>
      have : data = [] := by simpa using h0
      simp at h
      exact ⟨[], by simp [this, spacedParams], by simp [h, tqFold]⟩
    · split at h
      · simp at h
      next d h1 =>
      split at h
      · simp at h
      next n s1 h2 =>
      split at h
      · simp at h
      next v s2 h3 =>
      split at h
      · simp at h
      next t1 h4 =>
      obtain ⟨l, e1, e2⟩ := ih h
      obtain ⟨k, e3, hn, hv⟩ := readParam_sound h1 h2 h3
      refine ⟨(k, n, v) :: l, ?_, ?_⟩
      · rw [e3, e1]; simp [spacedParams]
      · simp [tqFold, h4, e2]

theorem tqLoop_complete {t t' : TimeQuality} (l : List (Nat × Bytes × Bytes)) (h : ∀ p ∈ l, IsName p.2.1 ∧ RawValue p.2.2)
    (hf : tqFold t (l.map (·.2)) = some t') (fuel : Nat) (hfuel : l.length < fuel) :
    tqLoop fuel t (spacedParams l) = .ret (some t') := by
  induction l generalizing t fuel with
  | nil =>
    obtain ⟨f, rfl⟩ : ∃ f, fuel = f + 1 := ⟨fuel - 1, by simp at hfuel; omega⟩
    simp [tqFold] at hf
    simp [tqLoop, spacedParams, hf]
  | cons p r ih =>
    obtain ⟨k, n, v⟩ := p
    obtain ⟨f, rfl⟩ : ∃ f, fuel = f + 1 := ⟨fuel - 1, by simp at hfuel; omega⟩
    have hp := h (k, n, v) (by simp)
    have e : spacedParams ((k, n, v) :: r) = List.replicate (k + 1) SP ++ paramText (n, v) ++ spacedParams r := by
      simp [spacedParams]
    obtain ⟨d, s1, h1, h2, h3⟩ := readParam hp.1 hp.2 k (rest := spacedParams r)
    simp only [List.map_cons, tqFold] at hf
    split at hf
    · simp at hf
    next t1 h4 =>
    rw [e, tqLoop, h1]
    simp only [h2, h3, h4]
    rw [if_neg (by simp), ih (fun q hq => h q (by simp [hq])) hf f (by simp at hfuel; omega)]

theorem lastValue_snoc (name : Bytes) (ps : List (Bytes × Bytes)) (p : Bytes × Bytes) :
    lastValue name (ps ++ [p]) = if p.1 = name then some p.2 else lastValue name ps := by
  unfold lastValue
  by_cases h : p.1 = name
  · simp [h, List.filter_append]
  · simp [h, List.filter_append]

theorem atoi_none_iff (s : Bytes) : atoi s = none ↔ ¬ ∃ v, IntText s v := by
  constructor
  · rintro h ⟨v, hv⟩; rw [(atoi_iff s v).mpr hv] at h; simp at h
  · intro h
    cases hs : atoi s with
    | none => rfl
    | some v => exact absurd ⟨v, (atoi_iff s v).mp hs⟩ h

theorem intText_unique {s : Bytes} {v w : Int} (h : IntText s v) (h' : IntText s w) : v = w := by
  have a := (atoi_iff s v).mpr h
  have b := (atoi_iff s w).mpr h'
  rw [a] at b; simpa using b

theorem tqSays_unique {ps : List (Bytes × Bytes)} {a b a' b' : Bool} {c c' : Option Int}
    (h : TqSays ps a b c) (h' : TqSays ps a' b' c') : a = a' ∧ b = b' ∧ c = c' := by
  obtain ⟨h1, h2, h3⟩ := h
  obtain ⟨g1, g2, g3⟩ := h'
  refine ⟨Bool.eq_iff_iff.mpr (h1.trans g1.symm), Bool.eq_iff_iff.mpr (h2.trans g2.symm), ?_⟩
  exact Option.ext fun v => (h3 v).trans (g3 v).symm

/-- The fold computes what the parameters say. -/
theorem tqFold_says (ps : List (Bytes × Bytes)) (t : TimeQuality) (h : tqFold ⟨false, false, none⟩ ps = some t) :
    (∀ p ∈ ps, TqParam p) ∧ TqSays ps t.tzKnown t.isSynced t.syncAccuracy := by
  induction ps using List.reverseRecOn generalizing t with
  | nil =>
    simp only [tqFold, Option.some.injEq] at h; subst h
    refine ⟨by simp, ?_⟩
    simp [TqSays, lastValue]
  | append_singleton ps p ih =>
    rw [tqFold_snoc] at h
    split at h
    · simp at h
    next t0 h0 =>
    obtain ⟨i1, i2, i3, i4⟩ := ih t0 h0
    obtain ⟨n, v⟩ := p
    have key : TqParam (n, v) ∧ TqSays (ps ++ [(n, v)]) t.tzKnown t.isSynced t.syncAccuracy := by
      unfold TqSays
      simp only [lastValue_snoc]
      unfold tqAssign at h
      simp only at h
      split at h
      · next hn =>
        subst hn
        simp only [show ¬ b!"tzKnown" = b!"isSynced" by decide, show ¬ b!"tzKnown" = b!"syncAccuracy" by decide, if_true, if_false]
        split at h
        · next hv => subst hv; simp only [Option.some.injEq] at h; subst h; exact ⟨.inl ⟨.inl rfl, .inl rfl⟩, by simp, i3, i4⟩
        · split at h
          · next hv => subst hv; simp only [Option.some.injEq] at h; subst h; exact ⟨.inl ⟨.inl rfl, .inr rfl⟩, by simp, i3, i4⟩
          · simp at h
      · split at h
        · next hn =>
          subst hn
          simp only [show ¬ b!"isSynced" = b!"tzKnown" by decide, show ¬ b!"isSynced" = b!"syncAccuracy" by decide, if_true, if_false]
          split at h
          · next hv => subst hv; simp only [Option.some.injEq] at h; subst h; exact ⟨.inl ⟨.inr rfl, .inl rfl⟩, i2, by simp, i4⟩
          · split at h
            · next hv => subst hv; simp only [Option.some.injEq] at h; subst h; exact ⟨.inl ⟨.inr rfl, .inr rfl⟩, i2, by simp, i4⟩
            · simp at h
        · split at h
          · next hn =>
            subst hn
            simp only [show ¬ b!"syncAccuracy" = b!"tzKnown" by decide, show ¬ b!"syncAccuracy" = b!"isSynced" by decide, if_true, if_false]
            split at h
            · next w hw =>
              simp only [Option.some.injEq] at h; subst h
              have hw' := (atoi_iff v w).mp hw
              refine ⟨.inr ⟨rfl, w, hw'⟩, i2, i3, ?_⟩
              intro x
              simp only [Option.some.injEq]
              constructor
              · rintro rfl; exact ⟨v, rfl, hw'⟩
              · rintro ⟨s, rfl, hs⟩; exact intText_unique hw' hs
            · simp at h
          · simp at h
    refine ⟨?_, key.2⟩
    intro q hq
    rcases List.mem_append.mp hq with hq | hq
    · exact i1 q hq
    · simp only [List.mem_singleton] at hq; subst hq; exact key.1

theorem tqFold_defined (ps : List (Bytes × Bytes)) (h : ∀ p ∈ ps, TqParam p) (t : TimeQuality) : ∃ t', tqFold t ps = some t' := by
  induction ps generalizing t with
  | nil => exact ⟨t, rfl⟩
  | cons p r ih =>
    obtain ⟨n, v⟩ := p
    have : ∃ t1, tqAssign t n v = some t1 := by
      rcases h (n, v) (by simp) with ⟨h1, h2⟩ | ⟨h1, w, hw⟩
      · simp only at h1 h2
        rcases h1 with rfl | rfl <;> rcases h2 with rfl | rfl
        · exact ⟨{ t with tzKnown := false }, rfl⟩
        · exact ⟨{ t with tzKnown := true }, rfl⟩
        · exact ⟨{ t with isSynced := false }, rfl⟩
        · exact ⟨{ t with isSynced := true }, rfl⟩
      · simp only at h1 hw
        subst h1
        refine ⟨{ t with syncAccuracy := some w }, ?_⟩
        unfold tqAssign
        rw [if_neg (by decide), if_neg (by decide), if_pos rfl, (atoi_iff v w).mpr hw]
    obtain ⟨t1, ht1⟩ := this
    obtain ⟨t', ht'⟩ := ih (fun p hp => h p (by simp [hp])) t1
    exact ⟨t', by simp [tqFold, ht1, ht']⟩

theorem tqParam_wellFormed {p : Bytes × Bytes} (h : TqParam p) : IsName p.1 ∧ RawValue p.2 := by
  obtain ⟨n, v⟩ := p
  rcases h with ⟨h1, h2⟩ | ⟨h1, w, sign, ds, h2, _, hd, hs⟩
  · simp only at h1 h2
    refine ⟨by rcases h1 with rfl | rfl <;> (simp only; decide +kernel), ?_⟩
    rcases h2 with rfl | rfl <;> exact .byte (by decide) (by decide) (by decide) .nil
  · simp only at h1 h2
    subst h1 h2
    refine ⟨by simp only; decide +kernel, ?_⟩
    apply rawValue_of_plain
    intro c hc
    rcases List.mem_append.mp hc with hc | hc
    · have : sign = [] ∨ sign = b!"+" ∨ sign = b!"-" := by tauto
      rcases this with rfl | rfl | rfl
      · simp at hc
      · simp only [List.mem_singleton] at hc; subst hc; decide
      · simp only [List.mem_singleton] at hc; subst hc; decide
    · have := hd c hc
      refine ⟨?_, ?_, ?_⟩ <;> (rintro rfl; exact absurd this (by decide))

/-- C23: exactly what the timeQuality decoder accepts, and what it reads. It accepts `[timeQuality` followed by
parameters of the RFC with legal values (in any order, with any positive number of spaces in between, repeated ones
included: the last one counts) and `]`, if they do not say what the RFC forbids, and nothing else; and the value it
gives is what they say. -/
theorem C23_decoder_reads (data : Slice) (sd : SD) :
    tqFound data = .ret (some sd) ↔
      ∃ (l : List (Nat × Bytes × Bytes)) (t : TimeQuality), data.vis = b!"[timeQuality" ++ spacedParams l ++ b!"]" ∧
        (∀ p ∈ l, TqParam p.2) ∧ TqSays (l.map (·.2)) t.tzKnown t.isSynced t.syncAccuracy ∧ ¬ TqForbidden t ∧ sd = .tq t := by
  obtain ⟨vis, spare⟩ := data
  constructor
  · intro h
    rcases openElement_cases ⟨vis, spare⟩ with ⟨_, ho⟩ | ⟨_, _, ho⟩ | ⟨inner, hv, _⟩
    · unfold tqFound at h; rw [ho] at h; simp at h
    · unfold tqFound at h; rw [ho] at h; simp at h
    · simp only at hv; subst hv
      rw [tqFound_bracket] at h
      split at h
      · simp at h
      split at h
      · next htake =>
        have hin : inner = b!"timeQuality" ++ inner.drop 11 := by
          conv => lhs; rw [← List.take_append_drop 11 inner, htake]
        have main : ∃ l t, inner.drop 11 = spacedParams l ∧ tqFold ⟨false, false, none⟩ (l.map (·.2)) = some t ∧ t.isValid = true ∧ sd = .tq t := by
          split at h
          · next h11 =>
            simp only [Out.ret.injEq, Option.some.injEq] at h
            exact ⟨[], ⟨false, false, none⟩, by rw [List.drop_of_length_le (by omega)]; rfl, rfl, rfl, h.symm⟩
          · split at h
            · simp at h
            · next t ht =>
              split at h
              · next hval =>
                simp only [Out.ret.injEq, Option.some.injEq] at h
                obtain ⟨l, e1, e2⟩ := tqLoop_sound ht
                exact ⟨l, t, e1, e2, hval, h.symm⟩
              · simp at h
            · simp at h
            · simp at h
        obtain ⟨l, t, e1, e2, e3, e4⟩ := main
        obtain ⟨f1, f2⟩ := tqFold_says _ _ e2
        refine ⟨l, t, ?_, ?_, f2, (isValid_iff t).mp e3, e4⟩
        · rw [hin, e1]; simp
        · intro p hp; exact f1 p.2 (List.mem_map.mpr ⟨p, hp, rfl⟩)
      · simp at h
  · rintro ⟨l, t, hv, hp, hsay, hok, rfl⟩
    simp only at hv
    have hv' : vis = LBRK :: ((b!"timeQuality" ++ spacedParams l) ++ [RBRK]) := by rw [hv]; rfl
    subst hv'
    obtain ⟨t', ht'⟩ := tqFold_defined (l.map (·.2)) (by
      intro q hq; obtain ⟨p, hp', rfl⟩ := List.mem_map.mp hq; exact hp p hp') ⟨false, false, none⟩
    obtain ⟨_, f2⟩ := tqFold_says _ _ ht'
    have htt : t' = t := by
      obtain ⟨a, b, c⟩ := t; obtain ⟨a', b', c'⟩ := t'
      obtain ⟨g1, g2, g3⟩ := tqSays_unique f2 hsay
      simp only at g1 g2 g3; subst g1 g2 g3; rfl
    subst htt
    rw [tqFound_bracket, if_neg (by simp; omega), if_pos (by simp)]
    have hd : (b!"timeQuality" ++ spacedParams l).drop 11 = spacedParams l := by simp
    cases l with
    | nil =>
      simp only [List.map_nil, tqFold, Option.some.injEq] at ht'
      subst ht'; rfl
    | cons p r =>
      have hlen : (b!"timeQuality" ++ spacedParams (p :: r)).length - 11 = (spacedParams (p :: r)).length := by simp
      have hl := spacedText_length (p :: r)
      rw [show spacedText (p :: r) = spacedParams (p :: r) from rfl] at hl
      have hl0 : 0 < (spacedParams (p :: r)).length := by simp only [List.length_cons] at hl; omega
      rw [if_neg (by simp only [List.length_append, tqName_length]; omega), hd, hlen,
        tqLoop_complete (p :: r) (fun q hq => tqParam_wellFormed (hp q hq)) ht' _ (Nat.lt_succ_of_le hl)]
      simp [(isValid_iff t').mpr hok]

/-- A repeated flag, a sign and extra spaces. -/
example : tqFound (.exact b!"[timeQuality tzKnown=\"0\"  tzKnown=\"1\" isSynced=\"1\" syncAccuracy=\"-5\"]") =
    .ret (some (.tq ⟨true, true, some (-5)⟩)) := rfl
example : tqFound (.exact b!"[timeQuality tzKnown=\"1\" isSynced=\"0\"]") = .ret (some (.tq ⟨true, false, none⟩)) := rfl
example : tqFound (.exact b!"[timeQuality tzKnown=\"2\"]") = .ret none := rfl

end Syslog5424
