import Verif.Lemmas.Clock
import Verif.Props.TimeQuality
import Verif.Lemmas.Transport
/-! # C54, C64, C65: `Timestamp`, `Epoch`, `Delta` -/
namespace Syslog5424
open Spec Clock Time

/-! ## C54 -/

theorem forall_uint8 {P : UInt8 → Prop} (h : ∀ n, n < 256 → P (UInt8.ofNat n)) (a : UInt8) : P a := by
  have := h a.toNat a.toNat_lt
  rwa [UInt8.ofNat_toNat] at this

theorem matchByte_lower (a b : UInt8) (hb : b ∈ (shortMonths.flatten)) : matchByte a b = true ↔ lower a = lower b := by
  have : ∀ b ∈ shortMonths.flatten, ∀ n, n < 256 → (matchByte (UInt8.ofNat n) b = true ↔ lower (UInt8.ofNat n) = lower b) := by
    decide +kernel
  exact forall_uint8 (P := fun a => matchByte a b = true ↔ lower a = lower b) (this b hb) a

theorem match3 (v value : Bytes) (hv : v ∈ shortMonths) :
    (v.length ≤ value.length ∧ ((value.take v.length).zip v).all (fun p => matchByte p.1 p.2) = true) ↔
      ∃ name r, value = name ++ r ∧ name.length = 3 ∧ name.map lower = v.map lower := by
  have hl : v.length = 3 := by
    have : ∀ v ∈ shortMonths, v.length = 3 := by decide
    exact this v hv
  have hmem : ∀ c ∈ v, c ∈ shortMonths.flatten := fun c hc => List.mem_flatten.mpr ⟨v, hv, hc⟩
  match v, hl with
  | [x, y, z], _ =>
    constructor
    · rintro ⟨h1, h2⟩
      match value, h1, h2 with
      | a :: b :: c :: r, _, h2 =>
        simp only [List.length_cons, List.length_nil, List.take_succ_cons, List.take_zero, List.zip_cons_cons, List.zip_nil_left,
          List.all_cons, List.all_nil, Bool.and_true, Bool.and_eq_true] at h2
        rw [matchByte_lower a x (hmem x (by simp)), matchByte_lower b y (hmem y (by simp)), matchByte_lower c z (hmem z (by simp))] at h2
        exact ⟨[a, b, c], r, rfl, rfl, by simp [h2]⟩
    · rintro ⟨name, r, rfl, h1, h2⟩
      match name, h1, h2 with
      | [a, b, c], _, h2 =>
        simp only [List.map_cons, List.map_nil, List.cons.injEq, and_true] at h2
        refine ⟨by simp, ?_⟩
        simp only [List.length_cons, List.length_nil, List.cons_append, List.nil_append, List.take_succ_cons, List.take_zero, List.zip_cons_cons, List.zip_nil_left,
          List.all_cons, List.all_nil, Bool.and_true, Bool.and_eq_true]
        rw [matchByte_lower a x (hmem x (by simp)), matchByte_lower b y (hmem y (by simp)), matchByte_lower c z (hmem z (by simp))]
        exact h2

theorem lookupMonth_sound (value : Bytes) (l : List Bytes) (hl : ∀ v ∈ l, v ∈ shortMonths) (i j : Nat) (rest : Bytes)
    (h : lookupMonth value l i = some (j, rest)) :
    ∃ v name, l[j - i]? = some v ∧ i ≤ j ∧ value = name ++ rest ∧ name.length = 3 ∧ name.map lower = v.map lower := by
  induction l generalizing i with
  | nil => simp [lookupMonth] at h
  | cons v l ih =>
    rw [lookupMonth] at h
    split at h
    · next hc =>
      simp only [Option.some.injEq, Prod.mk.injEq] at h
      obtain ⟨rfl, rfl⟩ := h
      obtain ⟨name, r, e1, e2, e3⟩ := (match3 v value (hl v (by simp))).mp hc
      have hv : v.length = 3 := by
        have := congrArg List.length e3; simp at this; omega
      refine ⟨v, name, by simp, Nat.le_refl _, ?_, e2, e3⟩
      rw [e1, hv]
      rw [List.drop_left' e2]
    · obtain ⟨v', name, h1, h2, h3⟩ := ih (fun v hv => hl v (by simp [hv])) (i + 1) h
      refine ⟨v', name, ?_, by omega, h3⟩
      rw [show j - i = (j - (i + 1)) + 1 by omega]; simpa using h1

theorem lookupMonth_complete (name rest : Bytes) (month : Nat) (h1 : 1 ≤ month) (h2 : month ≤ 12) (hn : name.map lower = (monthName month).map lower) :
    lookupMonth (name ++ rest) shortMonths 0 = some (month - 1, rest) := by
  have hl : name.length = 3 := by
    have := congrArg List.length hn
    have h3 : ∀ m, m ≤ 12 → (monthName m).length = 3 := by decide
    simp only [List.length_map, h3 month h2] at this; exact this
  -- no two months have the same name in lower case
  have hinj : ∀ i, i < 12 → ∀ m, m < 13 → 1 ≤ m → (((shortMonths.getD i []).map lower = (monthName m).map lower) ↔ i = m - 1) := by decide +kernel
  have key : ∀ (l : List Bytes) (i : Nat), l = shortMonths.drop i → i ≤ month - 1 → lookupMonth (name ++ rest) l i = some (month - 1, rest) := by
    intro l
    induction l with
    | nil =>
      intro i hd hi
      have := congrArg List.length hd
      simp [shortMonths] at this; omega
    | cons v l ih =>
      intro i hd hi
      have hvi : shortMonths.getD i [] = v := by
        have := congrArg (fun l => l.getD 0 []) hd
        simp only [List.getD_eq_getElem?_getD, List.getElem?_cons_zero, Option.getD_some, List.getElem?_drop, Nat.add_zero] at this ⊢
        exact this.symm
      have hv : v ∈ shortMonths := by
        have : v ∈ shortMonths.drop i := by rw [← hd]; simp
        exact List.mem_of_mem_drop this
      have hv3 : v.length = 3 := by
        have : ∀ v ∈ shortMonths, v.length = 3 := by decide
        exact this v hv
      rw [lookupMonth]
      by_cases him : i = month - 1
      · have hm := (hinj i (by omega) month (by omega) h1).mpr him
        rw [if_pos ((match3 v _ hv).mpr ⟨name, rest, rfl, hl, by rw [hn, ← hm, hvi]⟩), hv3, List.drop_left' hl, him]
      · rw [if_neg]
        · apply ih
          · have := congrArg List.tail hd
            simpa [List.tail_drop] using this
          · omega
        · intro hc
          obtain ⟨name', r', e1, e2, e3⟩ := (match3 v _ hv).mp hc
          have : name' = name := (List.append_inj e1 (by rw [hl, e2])).1.symm
          rw [this, hn, ← hvi] at e3
          exact him ((hinj i (by omega) month (by omega) h1).mp e3.symm)
  exact key shortMonths 0 rfl (by omega)

theorem skipSpace_sound {s r : Bytes} (h : skipSpace s = some r) : (s = [] ∧ r = []) ∨ ∃ k, s = List.replicate (k + 1) 32 ++ r ∧ r.head? ≠ some 32 := by
  unfold skipSpace at h
  split at h
  · simp at h; exact .inl ⟨rfl, h⟩
  · next c q =>
    split at h
    · simp at h
    next hc =>
    simp only [ne_eq, Decidable.not_not] at hc
    subst hc
    simp only [Option.some.injEq] at h
    right
    refine ⟨(q.takeWhile (· == 32)).length, ?_, ?_⟩
    · have e := List.takeWhile_append_dropWhile (p := (· == (32 : UInt8))) (l := q)
      have e2 : q.takeWhile (· == 32) = List.replicate (q.takeWhile (· == 32)).length 32 := by
        apply List.eq_replicate_iff.mpr
        refine ⟨rfl, fun x hx => ?_⟩
        have := List.all_takeWhile (p := (· == (32 : UInt8))) (l := q)
        rw [List.all_eq_true] at this; simpa using this x hx
      have hr : r = q.dropWhile (· == 32) := by rw [← h]; simp
      rw [hr, List.replicate_succ, List.cons_append, ← e2, e]
    · rw [← h]
      intro hh
      have := List.head?_dropWhile_not (p := (· == (32 : UInt8))) (l := 32 :: q)
      rw [hh] at this; simp at this

theorem skipSpace_complete (k : Nat) {r : Bytes} (h : r.head? ≠ some 32) : skipSpace (List.replicate (k + 1) 32 ++ r) = some r := by
  have hr : r.dropWhile (· == 32) = r := by
    cases r with
    | nil => rfl
    | cons c q => simp at h; simp [h]
  have : ∀ k, (List.replicate k (32 : UInt8) ++ r).dropWhile (· == 32) = r := by
    intro k
    induction k with
    | zero => simpa using hr
    | succ k ih => rw [List.replicate_succ]; simpa using ih
  unfold skipSpace
  rw [List.replicate_succ, List.cons_append]
  simp only [ne_eq, not_true_eq_false, if_false]
  rw [← List.cons_append, ← List.replicate_succ, this (k + 1)]

theorem dropOneSpace_id {s : Bytes} (h : s.head? ≠ some 32) : dropOneSpace s = s := by
  cases s with
  | nil => rfl
  | cons c r => simp at h; simp [dropOneSpace, h]

theorem value_one (a : UInt8) : value [a] = decVal [a] := (decVal_eq_value _).symm
theorem getnum12_sound {s r : Bytes} {n : Nat} (h : getnum12 s = some (n, r)) : ∃ ds, s = ds ++ r ∧ IsNumber (fun l => l = 1 ∨ l = 2) ds n := by
  unfold getnum12 at h
  split at h
  · next a b q =>
    split at h
    · next ha =>
      split at h
      · next hb =>
        simp only [Option.some.injEq, Prod.mk.injEq] at h
        obtain ⟨rfl, rfl⟩ := h
        exact ⟨[a, b], rfl, .inr rfl, by simp [← isDigit_iff, ha, hb], (decVal_eq_value _).symm⟩
      · simp only [Option.some.injEq, Prod.mk.injEq] at h
        obtain ⟨rfl, rfl⟩ := h
        exact ⟨[a], rfl, .inl rfl, by simp [← isDigit_iff, ha], (decVal_eq_value _).symm⟩
    · simp at h
  · next a =>
    split at h
    · next ha =>
      simp only [Option.some.injEq, Prod.mk.injEq] at h
      obtain ⟨rfl, rfl⟩ := h
      exact ⟨[a], rfl, .inl rfl, by simp [← isDigit_iff, ha], (decVal_eq_value _).symm⟩
    · simp at h
  · simp at h

theorem getnum12_complete {ds r : Bytes} {n : Nat} (h : IsNumber (fun l => l = 1 ∨ l = 2) ds n) (hr : ∀ c, r.head? = some c → ¬ IsDigit c) :
    getnum12 (ds ++ r) = some (n, r) := by
  obtain ⟨h1, h2, h3⟩ := h
  rw [← decVal_eq_value] at h3
  match ds, h1 with
  | [a], _ =>
    have ha := (isDigit_iff a).mpr (h2 a (by simp))
    match r, hr with
    | [], _ => simp [getnum12, ha, h3]
    | c :: q, hr =>
      have hc : isDigit c = false := by
        have := hr c rfl
        rw [← isDigit_iff] at this; simpa using this
      simp [getnum12, ha, hc, h3]
  | [a, b], _ =>
    have ha := (isDigit_iff a).mpr (h2 a (by simp))
    have hb := (isDigit_iff b).mpr (h2 b (by simp))
    simp [getnum12, ha, hb, h3]
  | [], h1 => simp at h1
  | _ :: _ :: _ :: _, h1 => simp at h1

theorem getnum2_sound {s r : Bytes} {n : Nat} (h : getnum2 s = some (n, r)) : ∃ ds, s = ds ++ r ∧ IsNumber (· = 2) ds n := by
  unfold getnum2 at h
  split at h
  · next a b q =>
    split at h
    · next hab =>
      simp only [Bool.and_eq_true] at hab
      simp only [Option.some.injEq, Prod.mk.injEq] at h
      obtain ⟨rfl, rfl⟩ := h
      exact ⟨[a, b], rfl, rfl, by simp [← isDigit_iff, hab], (decVal_eq_value _).symm⟩
    · simp at h
  · simp at h

theorem getnum2_complete {ds r : Bytes} {n : Nat} (h : IsNumber (· = 2) ds n) : getnum2 (ds ++ r) = some (n, r) := by
  obtain ⟨h1, h2, h3⟩ := h
  rw [← decVal_eq_value] at h3
  match ds, h1 with
  | [a, b], _ =>
    have ha := (isDigit_iff a).mpr (h2 a (by simp))
    have hb := (isDigit_iff b).mpr (h2 b (by simp))
    simp [getnum2, ha, hb, h3]

theorem getfrac_sound {s : Bytes} {n : Nat} (h : getfrac s = (n, [])) : IsFraction s n := by
  unfold getfrac at h
  split at h
  · next c d r =>
    split at h
    · next hc =>
      simp only [Prod.mk.injEq] at h
      obtain ⟨h1, h2⟩ := h
      have hall : (d :: r).takeWhile isDigit = d :: r := by
        have := List.takeWhile_append_dropWhile (p := isDigit) (l := d :: r)
        rw [h2, List.append_nil] at this; exact this
      rw [hall] at h1
      right
      refine ⟨c, d :: r, hc.1, by simp, ?_, rfl, by rw [← h1, decVal_eq_value]⟩
      rw [← all_isDigit, ← hall]
      exact List.all_takeWhile
    · simp at h
  · simp only [Prod.mk.injEq] at h
    exact .inl ⟨h.2, h.1.symm⟩

theorem takeWhile_all {p : UInt8 → Bool} {l : Bytes} (h : l.all p = true) : l.takeWhile p = l := by
  induction l with
  | nil => rfl
  | cons c l ih =>
    simp only [List.all_cons, Bool.and_eq_true] at h
    simp [h.1, ih h.2]

theorem dropWhile_all {p : UInt8 → Bool} {l : Bytes} (h : l.all p = true) : l.dropWhile p = [] := by
  induction l with
  | nil => rfl
  | cons c l ih =>
    simp only [List.all_cons, Bool.and_eq_true] at h
    simp [h.1, ih h.2]

theorem getfrac_complete {s : Bytes} {n : Nat} (h : IsFraction s n) : getfrac s = (n, []) := by
  rcases h with ⟨rfl, rfl⟩ | ⟨sep, ds, h1, h2, h3, rfl, rfl⟩
  · rfl
  · match ds, h2, h3 with
    | d :: r, _, h3 =>
      have hd : isDigit d = true := (isDigit_iff d).mpr (h3 d (by simp))
      have hall := (all_isDigit (d :: r)).mpr h3
      have htw : (d :: r).takeWhile isDigit = d :: r := takeWhile_all hall
      have hdw : (d :: r).dropWhile isDigit = [] := dropWhile_all hall
      unfold getfrac
      simp only
      rw [if_pos ⟨h1, hd⟩, htw, hdw, decVal_eq_value]

theorem not_digit_sp : ¬ IsDigit 32 := by decide
theorem not_digit_colon : ¬ IsDigit 58 := by decide

theorem daysIn_zero (m : Nat) : daysIn m 0 = monthLength m 2000 := by
  rw [daysIn_monthLength]
  unfold monthLength
  rw [if_pos (by decide : Leap 0), if_pos (by decide : Leap 2000)]

theorem IsNumber_head {P : Nat → Prop} {ds : Bytes} {n : Nat} (hP : ¬ P 0) (h : IsNumber P ds n) : ∃ c r, ds = c :: r ∧ IsDigit c := by
  match ds, h with
  | [], h => exact absurd h.1 hP
  | c :: r, h => exact ⟨c, r, rfl, h.2.1 c (by simp)⟩

theorem skipByte_sound {c : UInt8} {s r : Bytes} (h : skipByte c s = some r) : s = c :: r := by
  cases s with
  | nil => simp [skipByte] at h
  | cons d q =>
    simp only [skipByte] at h
    split at h
    · next hc => simp at h; simp_all
    · simp at h

theorem skipByte_cons (c : UInt8) (r : Bytes) : skipByte c (c :: r) = some r := by simp [skipByte]

/-- What `time.Parse(time.Stamp, _)` accepts. -/
theorem parseStamp_iff (s : Bytes) (f : StampFields) :
    parseStamp s = some f ↔ StampReads s f.month f.day f.hour f.minute f.second f.nsec := by
  constructor
  · intro h
    unfold parseStamp at h
    simp only [Option.bind_eq_bind, Option.bind_eq_some_iff, Prod.exists] at h
    obtain ⟨mo, s1, h1, s2, h2, d, s3, h3, s4, h4, hh, s5, h5, h⟩ := h
    split at h
    · simp at h
    next hh24 =>
    simp only [Option.bind_eq_some_iff, Prod.exists] at h
    obtain ⟨s6, h6, mi, s7, h7, h⟩ := h
    split at h
    · simp at h
    next hmi =>
    simp only [Option.bind_eq_some_iff, Prod.exists] at h
    obtain ⟨s8, h8, sec, s9, h9, h⟩ := h
    split at h
    · simp at h
    next hsec =>
    split at h
    · simp at h
    next hend =>
    split at h
    · simp at h
    next hday =>
    simp only [Option.some.injEq] at h
    subst h
    obtain ⟨v, name, e1, -, e2, e3, e4⟩ := lookupMonth_sound s shortMonths (fun _ h => h) 0 mo s1 h1
    have hmo : mo < 12 := by
      rcases Nat.lt_or_ge mo 12 with h | h
      · exact h
      · rw [List.getElem?_eq_none (by simpa [shortMonths] using h)] at e1; simp at e1
    have hname : v = monthName (mo + 1) := by
      have : ∀ i, i < 12 → shortMonths[i - 0]? = some (monthName (i + 1)) := by decide +kernel
      rw [this mo hmo] at e1; simpa using e1.symm
    rcases skipSpace_sound h2 with ⟨_, rfl⟩ | ⟨k, a1, a2⟩
    · simp [getnum12, dropOneSpace] at h3
    rw [dropOneSpace_id a2] at h3
    obtain ⟨dd, b1, b2⟩ := getnum12_sound h3
    rcases skipSpace_sound h4 with ⟨_, rfl⟩ | ⟨j, c1, -⟩
    · simp [getnum12] at h5
    obtain ⟨hs, d1, d2⟩ := getnum12_sound h5
    have g6 := skipByte_sound h6
    obtain ⟨ms, f1, f2⟩ := getnum2_sound h7
    have g8 := skipByte_sound h8
    obtain ⟨ss, g1, g2⟩ := getnum2_sound h9
    simp only [ne_eq, Decidable.not_not] at hend
    have hfr : IsFraction s9 (getfrac s9).1 := getfrac_sound (by rw [← hend])
    refine ⟨name, k, dd, j, hs, ms, ss, s9, ?_, by simp, by simp; omega, by rw [e4, hname], b2, by simp; omega, ?_, d2, by simp; omega, f2, by simp; omega, g2, by simp; omega, hfr⟩
    · rw [e2, a1, b1, c1, d1, g6, f1, g8, g1]
      simp only [List.append_assoc, List.cons_append, List.nil_append]
    · rw [← daysIn_zero]; simp; omega
  · rintro ⟨name, k, dd, j, hs, ms, ss, fr, rfl, m1, m2, hn, hd, d1, d2, hh, hh24, hm, hm60, hsec, hsec60, hfr⟩
    obtain ⟨c1, r1, k1, k2⟩ := IsNumber_head (by simp) hd
    obtain ⟨c2, r2, k3, k4⟩ := IsNumber_head (by simp) hh
    have hc1 : c1 ≠ 32 := fun h => not_digit_sp (h ▸ k2)
    have hc2 : c2 ≠ 32 := fun h => not_digit_sp (h ▸ k4)
    unfold parseStamp
    simp only [List.append_assoc, List.cons_append, List.nil_append]
    rw [lookupMonth_complete name _ f.month m1 m2 hn]
    simp only [Option.bind_eq_bind, Option.bind_some]
    rw [skipSpace_complete k (by rw [k1]; simpa using hc1)]
    simp only [Option.bind_some]
    rw [dropOneSpace_id (by rw [k1]; simpa using hc1), getnum12_complete hd (by intro c hc; rw [List.replicate_succ] at hc; simp at hc; exact hc ▸ not_digit_sp)]
    simp only [Option.bind_some]
    rw [skipSpace_complete j (by rw [k3]; simpa using hc2)]
    simp only [Option.bind_some]
    rw [getnum12_complete hh (by intro c hc; simp at hc; exact hc ▸ not_digit_colon)]
    simp only [Option.bind_some]
    rw [if_neg (by omega), skipByte_cons]
    simp only [Option.bind_some]
    rw [getnum2_complete hm]
    simp only [Option.bind_some]
    rw [if_neg (by omega), skipByte_cons]
    simp only [Option.bind_some]
    rw [getnum2_complete hsec]
    simp only [Option.bind_some]
    rw [if_neg (by omega), getfrac_complete hfr]
    rw [daysIn_zero, show f.month - 1 + 1 = f.month by omega]
    rw [if_neg (by simp), if_neg (by omega)]

theorem twoDigits_number {n : Nat} (h : n < 100) : IsNumber (· = 2) (twoDigits n) n := by
  have : ∀ n, n < 100 → (twoDigits n).length = 2 ∧ (∀ d ∈ twoDigits n, IsDigit d) ∧ value (twoDigits n) = n := by decide +kernel
  exact this n h

theorem oneDigit_number {n : Nat} (h : n < 10) : IsNumber (fun l => l = 1 ∨ l = 2) [UInt8.ofNat (48 + n)] n := by
  have : ∀ n, n < 10 → (∀ d ∈ [UInt8.ofNat (48 + n)], IsDigit d) ∧ value [UInt8.ofNat (48 + n)] = n := by decide +kernel
  exact ⟨.inl rfl, this n h⟩

/-- The stamps of RFC 3164 are readable. -/
theorem stampReads_text (month day hour minute second : Nat) (h1 : 1 ≤ month ∧ month ≤ 12) (h2 : 1 ≤ day ∧ day ≤ monthLength month 2000)
    (h3 : hour < 24) (h4 : minute < 60) (h5 : second < 60) :
    StampReads (stampText month day hour minute second) month day hour minute second 0 := by
  have hd := monthLength_le month 2000
  have hh := twoDigits_number (n := hour) (by omega)
  have hm := twoDigits_number (n := minute) (by omega)
  have hs := twoDigits_number (n := second) (by omega)
  by_cases h : day < 10
  · refine ⟨monthName month, 1, [UInt8.ofNat (48 + day)], 0, twoDigits hour, twoDigits minute, twoDigits second, [], ?_, h1.1, h1.2, rfl,
      oneDigit_number h, h2.1, h2.2, ⟨.inr hh.1, hh.2⟩, h3, hm, h4, hs, h5, .inl ⟨rfl, rfl⟩⟩
    simp [stampText, twoColumns, h, List.replicate_succ]
  · have hdd := twoDigits_number (n := day) (by omega)
    refine ⟨monthName month, 0, twoDigits day, 0, twoDigits hour, twoDigits minute, twoDigits second, [], ?_, h1.1, h1.2, rfl,
      ⟨.inr hdd.1, hdd.2⟩, h2.1, h2.2, ⟨.inr hh.1, hh.2⟩, h3, hm, h4, hs, h5, .inl ⟨rfl, rfl⟩⟩
    simp [stampText, twoColumns, h, List.replicate_succ]

theorem monthLength_2000 (m : Nat) (y : Int) : monthLength m y ≤ monthLength m 2000 := by
  unfold monthLength
  rw [if_pos (by decide : Leap 2000)]
  split
  · split <;> omega
  · exact Nat.le_refl _

/-- **C54.** A readable stamp: the year is the current one, or the previous one for a December stamp read in January;
month, day and time are kept if the day exists in that year, and the time is in UTC. Nothing else in the message
changes. -/
theorem C54_reads_partial (nowYear : Int) (nowMonth : Nat) (m : Message) (stamp : Bytes) (month day hour minute second nsec : Nat)
    (h : StampReads stamp month day hour minute second nsec)
    (hd : day ≤ monthLength month (if nowMonth = 1 ∧ month = 12 then nowYear - 1 else nowYear)) :
    m.setStamp nowYear nowMonth stamp =
      { m with timestamp := ⟨if nowMonth = 1 ∧ month = 12 then nowYear - 1 else nowYear, month, day, hour, minute, second, nsec, 0⟩ } := by
  have := (parseStamp_iff stamp ⟨month, day, hour, minute, second, nsec⟩).mpr h
  unfold Message.setStamp stampToTs Message.setTime date
  rw [this]
  simp only [Option.getD_some, daysIn_monthLength]
  rw [if_neg (by omega)]

/-- Days before January 1 of a year. -/
def daysToYear (y : Int) : Int := 365 * (y - 1) + (y - 1) / 4 - (y - 1) / 100 + (y - 1) / 400

theorem daysToYear_succ (y : Int) : daysToYear (y + 1) = daysToYear y + (if Leap y then 366 else 365) := by
  unfold daysToYear
  by_cases h : Leap y
  · rw [if_pos h]; unfold Leap at h; omega
  · rw [if_neg h]; unfold Leap at h; omega

theorem daysToYear_mono (y : Int) (n : Nat) : daysToYear y + 365 * n ≤ daysToYear (y + n) := by
  induction n with
  | zero => simp
  | succ n ih =>
    have := daysToYear_succ (y + n)
    rw [show y + ((n + 1 : Nat) : Int) = y + n + 1 by push_cast; omega, this]
    split <;> (push_cast; omega)

theorem daysToYear_le {a b : Int} (h : a ≤ b) : daysToYear a + 365 * (b - a) ≤ daysToYear b := by
  have := daysToYear_mono a (b - a).toNat
  rw [show a + ((b - a).toNat : Int) = b by omega] at this; omega

theorem dayNumber_eq (y : Int) (m d : Nat) : dayNumber y m d = daysToYear y + daysToMonth y m + d - 1 := rfl

theorem dayOfYear (y : Int) (m d : Nat) (h1 : 1 ≤ m) (h2 : m ≤ 12) (h3 : 1 ≤ d) (h4 : d ≤ monthLength m y) :
    (m = 1 → daysToMonth y m = 0) ∧ (2 ≤ m → 31 ≤ daysToMonth y m) ∧
    (m < 12 → daysToMonth y m + d ≤ 334 + if Leap y then 1 else 0) ∧
    (m = 12 → daysToMonth y m = 334 + if Leap y then 1 else 0) ∧ d ≤ 31 := by
  have h := daysToMonth_cases y (m - 1) (by omega)
  rw [show m - 1 + 1 = m by omega] at h
  have hl : monthLength 2 y = if Leap y then 29 else 28 := rfl
  have e : ∀ m, m ≠ 2 → monthLength m y = if m ∈ [4, 6, 9, 11] then 30 else 31 := by
    intro m h; simp [monthLength, h]
  have h31 := monthLength_le m y
  refine ⟨?_, ?_, ?_, ?_, by omega⟩
  · rintro rfl; simpa [daysBefore] using h
  · intro hm
    rw [h]
    interval_cases m <;> simp [daysBefore] <;> omega
  · intro hm
    rw [h]
    interval_cases m <;> simp [daysBefore, e, hl] at h4 ⊢ <;> split <;> simp_all <;> omega
  · rintro rfl; rw [h]; simp [daysBefore]

theorem year_recent (ny y : Int) (nm nd mo d : Nat) (hn : 1 ≤ nm ∧ nm ≤ 12 ∧ 1 ≤ nd ∧ nd ≤ monthLength nm ny)
    (ht : 1 ≤ mo ∧ mo ≤ 12 ∧ 1 ≤ d ∧ d ≤ monthLength mo y)
    (hpast : dayNumber y mo d ≤ dayNumber ny nm nd) (hrecent : dayNumber ny nm nd ≤ dayNumber y mo d + 31) :
    y = (if nm = 1 ∧ mo = 12 then ny - 1 else ny) := by
  obtain ⟨a1, a2, a3, a4, a5⟩ := dayOfYear ny nm nd hn.1 hn.2.1 hn.2.2.1 hn.2.2.2
  obtain ⟨b1, b2, b3, b4, b5⟩ := dayOfYear y mo d ht.1 ht.2.1 ht.2.2.1 ht.2.2.2
  rw [dayNumber_eq, dayNumber_eq] at hpast hrecent
  have hb : (daysToMonth y mo + d : Nat) ≤ if Leap y then 366 else 365 := by
    split <;> rename_i hl <;> simp only [hl, if_true, if_false] at b3 b4 <;> omega
  have ha : (daysToMonth ny nm + nd : Nat) ≤ if Leap ny then 366 else 365 := by
    split <;> rename_i hl <;> simp only [hl, if_true, if_false] at a3 a4 <;> omega
  have sy := daysToYear_succ y
  have sn := daysToYear_succ ny
  have hle : y ≤ ny := by
    by_contra hc
    have := daysToYear_le (a := ny + 1) (b := y) (by omega)
    split at sn <;> rename_i hl <;> simp only [hl, if_true, if_false] at ha <;> omega
  have hge : ny - 1 ≤ y := by
    by_contra hc
    have := daysToYear_le (a := y + 2) (b := ny) (by omega)
    have s2 := daysToYear_succ (y + 1)
    rw [show y + 1 + 1 = y + 2 by omega] at s2
    split at sy <;> rename_i hl <;> simp only [hl, if_true, if_false] at hb <;> split at s2 <;> omega
  by_cases h : y = ny
  · subst h
    rw [if_neg]
    rintro ⟨rfl, rfl⟩
    have := a1 rfl; have := b4 rfl
    omega
  · have hy : y + 1 = ny := by omega
    rw [hy] at sy
    have hnm : nm = 1 := by
      by_contra hc
      have := a2 (by omega)
      split at sy <;> rename_i hl <;> simp only [hl, if_true, if_false] at hb <;> omega
    have hmo : mo = 12 := by
      by_contra hc
      have := b3 (by omega)
      have := a1 hnm
      split at sy <;> rename_i hl <;> simp only [hl, if_true, if_false] at * <;> omega
    rw [if_pos ⟨hnm, hmo⟩]; omega

/-- **C54.** The stamp of an event that happened in the last 31 days gives exactly its date and time, whatever the
current date; `now` and the event are dates of the same calendar. -/
theorem C54_recent (nowYear : Int) (nowMonth nowDay : Nat) (hnow : 1 ≤ nowMonth ∧ nowMonth ≤ 12 ∧ 1 ≤ nowDay ∧ nowDay ≤ monthLength nowMonth nowYear)
    (t : Time) (ht : Exists t) (hsub : t.nsec = 0) (hoff : t.off = 0)
    (hpast : dayNumber t.year t.month t.day ≤ dayNumber nowYear nowMonth nowDay)
    (hrecent : dayNumber nowYear nowMonth nowDay ≤ dayNumber t.year t.month t.day + 31) (m : Message) :
    (m.setStamp nowYear nowMonth (stampText t.month t.day t.hour t.minute t.second)).timestamp = t := by
  have hy : t.year = (if nowMonth = 1 ∧ t.month = 12 then nowYear - 1 else nowYear) :=
    year_recent nowYear t.year nowMonth nowDay t.month t.day hnow ⟨ht.month.1, ht.month.2, ht.day⟩ hpast hrecent
  have hr := stampReads_text t.month t.day t.hour t.minute t.second ht.month ⟨ht.day.1, Nat.le_trans ht.day.2 (monthLength_2000 _ _)⟩ ht.hour ht.minute ht.second
  rw [C54_reads_partial nowYear nowMonth m _ _ _ _ _ _ _ hr (by rw [← hy]; exact ht.day.2), ← hy]
  cases t; simp only at hsub hoff ⊢; subst hsub hoff; rfl

/-- **C54.** A stamp that cannot be read is taken for midnight, January 1 of the current year. -/
theorem C54_unreadable (nowYear : Int) (nowMonth : Nat) (m : Message) (stamp : Bytes)
    (h : ∀ month day hour minute second nsec, ¬ StampReads stamp month day hour minute second nsec) :
    m.setStamp nowYear nowMonth stamp = { m with timestamp := ⟨nowYear, 1, 1, 0, 0, 0, 0, 0⟩ } := by
  have hn : parseStamp stamp = none := by
    cases hp : parseStamp stamp with
    | none => rfl
    | some f => exact absurd ((parseStamp_iff stamp f).mp hp) (h _ _ _ _ _ _)
  unfold Message.setStamp stampToTs Message.setTime date
  rw [hn]
  simp [daysIn]

/-- **C54 fails** for February 29 in a common year: the stamp is taken for March 1. -/
theorem C54_leap_violated (nowYear : Int) (hy : ¬ Leap nowYear) (nowMonth hour minute second : Nat) (h3 : hour < 24) (h4 : minute < 60) (h5 : second < 60) (m : Message) :
    (m.setStamp nowYear nowMonth (stampText 2 29 hour minute second)).timestamp = ⟨nowYear, 3, 1, hour, minute, second, 0, 0⟩ := by
  have hr := stampReads_text 2 29 hour minute second (by decide) (by decide) h3 h4 h5
  have := (parseStamp_iff _ ⟨2, 29, hour, minute, second, 0⟩).mpr hr
  unfold Message.setStamp stampToTs Message.setTime date
  rw [this]
  simp only [Option.getD_some, daysIn_monthLength, monthLength, if_true]
  simp [hy]

/-- **C54 fails** for a stamp slightly ahead of the clock of the reader at the end of the year: read on December 31, the
stamp of January 1 is taken for the January 1 that is one year old. -/
theorem C54_ahead_violated (year : Int) (m : Message) :
    (m.setStamp year 12 (stampText 1 1 0 0 0)).timestamp = ⟨year, 1, 1, 0, 0, 0, 0, 0⟩ ∧
    dayNumber year 12 31 + 1 = dayNumber (year + 1) 1 1 := by
  constructor
  · have hr := stampReads_text 1 1 0 0 0 (by decide) (by decide) (by decide) (by decide) (by decide)
    rw [C54_reads_partial year 12 m _ _ _ _ _ _ _ hr (by simp [monthLength])]
    simp
  · have h := daysToMonth_cases year 11 (by omega)
    have s := daysToYear_succ year
    rw [dayNumber_eq, dayNumber_eq, s, h]
    simp only [daysBefore, daysToMonth]
    split <;> simp_all <;> omega

/-- The hypotheses of `C54_recent` hold: the last second of 2023 read on January 15, 2024. -/
example : ∃ t : Time, Spec.Exists t ∧ t.nsec = 0 ∧ t.off = 0 ∧ dayNumber t.year t.month t.day ≤ dayNumber 2024 1 15 ∧
    dayNumber 2024 1 15 ≤ dayNumber t.year t.month t.day + 31 ∧ stampText t.month t.day t.hour t.minute t.second = b!"Dec 31 23:59:59" :=
  ⟨⟨2023, 12, 31, 23, 59, 59, 0, 0⟩, ⟨by decide, by decide, by decide, by decide, by decide, by decide⟩, rfl, rfl, by decide +kernel, by decide +kernel, by decide +kernel⟩

/-! ## C64 -/

theorem parseInt64_lenient (s : Bytes) : Lenient s (parseInt64 s) := by
  have hd0 : ¬ IsDigit 45 := by decide
  have hd1 : ¬ IsDigit 43 := by decide
  unfold parseInt64
  simp only
  obtain ⟨sign, ds, hs, hsign, hds⟩ : ∃ sign ds, s = sign ++ ds ∧ (sign = b!"" ∧ s.head? ≠ some 45 ∧ s.head? ≠ some 43 ∨ sign = b!"+" ∨ sign = b!"-") ∧
      (if (s.head? == some 45 || s.head? == some 43) = true then List.drop 1 s else s) = ds := by
    by_cases h45 : s.head? = some 45
    · obtain ⟨r, rfl⟩ := List.head?_eq_some_iff.mp h45
      exact ⟨b!"-", r, rfl, .inr (.inr rfl), rfl⟩
    · by_cases h43 : s.head? = some 43
      · obtain ⟨r, rfl⟩ := List.head?_eq_some_iff.mp h43
        exact ⟨b!"+", r, rfl, .inr (.inl rfl), rfl⟩
      · exact ⟨b!"", s, rfl, .inl ⟨rfl, h45, h43⟩, by simp [h45, h43]⟩
  rw [hds]
  by_cases hbad : (ds.isEmpty || !ds.all isDigit) = true
  · rw [if_pos hbad]
    right
    refine ⟨?_, rfl⟩
    rintro ⟨n, sign', ds', e1, e2, e3, e4⟩
    have hsame : ds' = ds := by
      have hne : ∀ c ∈ ds', c ≠ 45 ∧ c ≠ 43 := fun c hc => ⟨fun h => hd0 (h ▸ e3 c hc), fun h => hd1 (h ▸ e3 c hc)⟩
      have hsg' : sign' = b!"" ∨ sign' = b!"+" ∨ sign' = b!"-" := by
        rcases e4 with ⟨h | h, _⟩ | ⟨h, _⟩ <;> simp [h]
      rw [e1] at hds
      rcases hsg' with rfl | rfl | rfl
      · match ds', e2, hne with
        | c :: r, _, hne =>
          have hc := hne c (by simp)
          rw [← hds]
          simp [hc]
      · rw [← hds]; rfl
      · rw [← hds]; rfl
    subst hsame
    have := (all_isDigit ds').mpr e3
    simp [this, e2] at hbad
  · rw [if_neg hbad]
    have hgood : ds ≠ [] ∧ ds.all isDigit = true := by simpa using hbad
    have hdig := (all_isDigit ds).mp hgood.2
    left
    rw [decVal_eq_value]
    rcases hsign with ⟨rfl, h1, h2⟩ | rfl | rfl
    · refine ⟨value ds, ⟨b!"", ds, hs, hgood.1, hdig, .inl ⟨.inl rfl, rfl⟩⟩, ?_⟩
      rw [if_neg (by simpa using h1)]
      split <;> omega
    · refine ⟨value ds, ⟨b!"+", ds, hs, hgood.1, hdig, .inl ⟨.inr rfl, rfl⟩⟩, ?_⟩
      rw [if_neg (by rw [hs]; simp)]
      split <;> omega
    · refine ⟨-(value ds : Int), ⟨b!"-", ds, hs, hgood.1, hdig, .inr ⟨rfl, rfl⟩⟩, ?_⟩
      rw [if_pos (by rw [hs]; simp)]
      split <;> omega

theorem integer_unique {s : Bytes} {v w : Int} (h : Integer s v) (h' : Integer s w) : v = w := by
  have hd0 : ¬ IsDigit 45 := by decide
  have hd1 : ¬ IsDigit 43 := by decide
  obtain ⟨a, x, rfl, a2, a3, a4⟩ := h
  obtain ⟨b, y, b1, b2, b3, b4⟩ := h'
  match x, y, a2, b2 with
  | c :: x, d :: y, _, _ =>
    have hc := a3 c (by simp)
    have hd := b3 d (by simp)
    have c1 : c ≠ 45 := fun h => hd0 (h ▸ hc)
    have c2 : c ≠ 43 := fun h => hd1 (h ▸ hc)
    have d1 : d ≠ 45 := fun h => hd0 (h ▸ hd)
    have d2 : d ≠ 43 := fun h => hd1 (h ▸ hd)
    rcases a4 with ⟨rfl | rfl, rfl⟩ | ⟨rfl, rfl⟩ <;> rcases b4 with ⟨rfl | rfl, rfl⟩ | ⟨rfl, rfl⟩ <;> simp_all

theorem lenient_unique {s : Bytes} {v w : Int} (h : Lenient s v) (h' : Lenient s w) : v = w := by
  rcases h with ⟨n, h1, rfl⟩ | ⟨h1, rfl⟩ <;> rcases h' with ⟨k, h2, rfl⟩ | ⟨h2, rfl⟩
  · rw [integer_unique h1 h2]
  · exact absurd ⟨n, h1⟩ h2
  · exact absurd ⟨k, h2⟩ h1
  · rfl

theorem lenient_range {s : Bytes} {v : Int} (h : Lenient s v) : -(2 ^ 63) ≤ v ∧ v < 2 ^ 63 := by
  rcases h with ⟨n, _, rfl⟩ | ⟨_, rfl⟩ <;> omega

/-- A number that fits is read exactly. -/
theorem lenient_int {s : Bytes} {v : Int} (h : IntText s v) : Lenient s v := by
  obtain ⟨sign, ds, h1, h2, h3, h4⟩ := h
  left
  rcases h4 with ⟨hs, rfl, hr⟩ | ⟨hs, rfl, hr⟩
  · exact ⟨_, ⟨sign, ds, h1, h2, h3, .inl ⟨hs, rfl⟩⟩, by omega⟩
  · exact ⟨_, ⟨sign, ds, h1, h2, h3, .inr ⟨hs, rfl⟩⟩, by omega⟩

theorem unix_spec (s n : Int) (hs : -(2 ^ 62) ≤ s ∧ s ≤ 2 ^ 62) (hn : -(2 ^ 63) ≤ n ∧ n < 2 ^ 63) :
    (unix s n).sec = s + n / 10 ^ 9 ∧ (unix s n).nsec = n % 10 ^ 9 := by
  unfold unix
  split
  · have e := Int.tdiv_eq_ediv (a := n) (b := 1000000000)
    simp only [show Int.sign 1000000000 = 1 from rfl] at e
    generalize hq : n.tdiv 1000000000 = q at *
    simp only
    rw [wrap64_id (i := s + q) (by split at e <;> omega) (by split at e <;> omega)]
    split
    · rw [wrap64_id (by split at e <;> omega) (by split at e <;> omega)]
      constructor <;> split at e <;> simp only <;> omega
    · constructor <;> split at e <;> simp only <;> omega
  · constructor <;> simp only <;> omega

/-- **C64.** `Epoch`: the timestamp is the instant the numbers say, in the local time zone; nothing else in the message
changes. A text that is not a number counts as 0, and a number that does not fit in 64 bits counts as the limit. -/
theorem C64_epoch (zone : Int → Int) (hz : ∀ x, -172800 ≤ zone x ∧ zone x ≤ 172800) (m : Message) (strSec strNsec : Bytes) (sec nsec : Int)
    (h1 : Lenient strSec sec) (h2 : Lenient strNsec nsec) (hr : -(2 ^ 62) ≤ sec ∧ sec ≤ 2 ^ 62) :
    ∃ t, m.setEpoch zone strSec strNsec = { m with timestamp := t } ∧ Spec.Exists t ∧
      t.off = zone (sec + nsec / 10 ^ 9) ∧ instant t = sec * 10 ^ 9 + nsec := by
  have e1 := lenient_unique (parseInt64_lenient strSec) h1
  have e2 := lenient_unique (parseInt64_lenient strNsec) h2
  have hn := lenient_range h2
  obtain ⟨u1, u2⟩ := unix_spec sec nsec hr hn
  have hz' := hz (unix sec nsec).sec
  obtain ⟨c1, c2, c3⟩ := civil_spec zone (unix sec nsec) (by rw [u2]; omega) (by rw [unixToAbsolute]; rw [u1] at hz' ⊢; omega)
  refine ⟨civil zone (unix sec nsec), ?_, c1, by rw [c2, u1], by rw [c3, u1, u2]; omega⟩
  unfold Message.setEpoch Message.setTime epochToTs
  rw [e1, e2]

/-- **C64.** The usual case: two numbers that fit. -/
theorem C64_numbers (zone : Int → Int) (hz : ∀ x, -172800 ≤ zone x ∧ zone x ≤ 172800) (m : Message) (strSec strNsec : Bytes) (sec nsec : Int)
    (h1 : IntText strSec sec) (h2 : IntText strNsec nsec) (hr : -(2 ^ 62) ≤ sec ∧ sec ≤ 2 ^ 62) :
    ∃ t, m.setEpoch zone strSec strNsec = { m with timestamp := t } ∧ Spec.Exists t ∧
      t.off = zone (sec + nsec / 10 ^ 9) ∧ instant t = sec * 10 ^ 9 + nsec :=
  C64_epoch zone hz m strSec strNsec sec nsec (lenient_int h1) (lenient_int h2) hr

/-- The hypotheses hold for `Epoch("1700000000", "-1")`. -/
example : IntText b!"1700000000" 1700000000 ∧ IntText b!"-1" (-1) :=
  ⟨(atoi_iff _ _).mp (by decide +kernel), (atoi_iff _ _).mp (by decide +kernel)⟩
/-- ... and the date is then this one. -/
example : (Message.empty.setEpoch (fun _ => 3600) b!"1700000000" b!"-1").timestamp = ⟨2023, 11, 14, 23, 13, 19, 999999999, 3600⟩ := by
  decide +kernel

/-! ## C65 -/

/-- **C65.** `Delta`: the timestamp is the boot time plus the seconds and nanoseconds, when their sum fits in a
`time.Duration` (292 years); nothing else in the message changes. -/
theorem C65_delta_partial (zone : Int → Int) (hz : ∀ x, -172800 ≤ zone x ∧ zone x ≤ 172800) (m : Message) (boot : Instant)
    (hb : -(2 ^ 62) ≤ boot.sec ∧ boot.sec ≤ 2 ^ 62 ∧ 0 ≤ boot.nsec ∧ boot.nsec < 10 ^ 9) (strSec strNsec : Bytes) (sec nsec : Int)
    (h1 : Lenient strSec sec) (h2 : Lenient strNsec nsec) (hr : -(2 ^ 63) ≤ sec * 10 ^ 9 + nsec ∧ sec * 10 ^ 9 + nsec < 2 ^ 63) :
    ∃ t, m.setDelta zone boot strSec strNsec = { m with timestamp := t } ∧ Spec.Exists t ∧
      instant t = boot.sec * 10 ^ 9 + boot.nsec + (sec * 10 ^ 9 + nsec) := by
  have e1 := lenient_unique (parseInt64_lenient strSec) h1
  have e2 := lenient_unique (parseInt64_lenient strNsec) h2
  have hw : wrap64 (nsec + wrap64 (sec * 1000000000)) = sec * 10 ^ 9 + nsec := by
    unfold wrap64
    rw [Int.add_bmod_bmod, Int.bmod_eq_of_le (by omega) (by omega)]; omega
  have hd : deltaBootToTs boot strSec strNsec = boot.add (sec * 10 ^ 9 + nsec) := by
    unfold deltaBootToTs; rw [e1, e2, hw]
  generalize sec * 10 ^ 9 + nsec = d at *
  have ha : (boot.add d).sec * 10 ^ 9 + (boot.add d).nsec = boot.sec * 10 ^ 9 + boot.nsec + d ∧ 0 ≤ (boot.add d).nsec ∧ (boot.add d).nsec < 10 ^ 9 := by
    unfold Instant.add
    have e := Int.tdiv_eq_ediv (a := d) (b := 1000000000)
    have e' := Int.tmod_eq_emod (a := d) (b := 1000000000)
    have e3 := Int.tmod_add_mul_tdiv d 1000000000
    simp only [show Int.sign 1000000000 = 1 from rfl] at e
    generalize d.tdiv 1000000000 = q at *
    generalize d.tmod 1000000000 = r at *
    simp only
    split
    · simp only; refine ⟨by omega, by omega, ?_⟩; split at e' <;> omega
    · split
      · simp only; refine ⟨by omega, ?_, by omega⟩; split at e' <;> omega
      · simp only; omega
  have hz2 := hz (boot.add d).sec
  obtain ⟨c1, -, c3⟩ := civil_spec zone (boot.add d) ha.2 (by rw [unixToAbsolute]; omega)
  refine ⟨civil zone (boot.add d), ?_, c1, by rw [c3]; omega⟩
  unfold Message.setDelta Message.setTime
  rw [hd]

/-- **C65 fails** beyond: 9223372037 seconds after the boot at the epoch are a date before the boot. -/
theorem C65_overflow_violated (m : Message) :
    (m.setDelta (fun _ => 0) ⟨0, 0⟩ b!"9223372037" b!"0").timestamp = ⟨1677, 9, 21, 0, 12, 43, 290448384, 0⟩ := by
  rw [show m.setDelta (fun _ => 0) ⟨0, 0⟩ b!"9223372037" b!"0" = { m with timestamp := civil (fun _ => 0) (deltaBootToTs ⟨0, 0⟩ b!"9223372037" b!"0") } from rfl]
  show civil (fun _ => 0) (deltaBootToTs ⟨0, 0⟩ b!"9223372037" b!"0") = _
  decide +kernel

end Syslog5424
