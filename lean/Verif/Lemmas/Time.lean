import Verif.Spec.Time
import Verif.Lemmas.Basic
/-! # Lemmas about timestamps -/
namespace Syslog5424
namespace Time

theorem decVal_append (a b : Bytes) : decVal (a ++ b) = decVal a * 10 ^ b.length + decVal b := by
  induction h : b.reverse generalizing b with
  | nil =>
    have : b = [] := by simpa using h
    subst this; simp [decVal]
  | cons d r ih =>
    have hd : b = r.reverse ++ [d] := by
      have := congrArg List.reverse h; simpa using this
    subst hd
    rw [← List.append_assoc, decVal_snoc, ih r.reverse (by simp), decVal_snoc]
    simp only [List.length_append, List.length_singleton, Nat.pow_succ, Nat.add_mul, Nat.mul_assoc]
    omega

theorem decVal_zeros (k : Nat) : decVal (List.replicate k 48) = 0 := by
  induction k with
  | zero => rfl
  | succ k ih => rw [List.replicate_succ', decVal_snoc, ih]; rfl

theorem padNat_digits (w x : Nat) : ∀ d ∈ padNat w x, Spec.IsDigit d := by
  intro d hd
  simp only [padNat, List.mem_append, List.mem_replicate] at hd
  rcases hd with ⟨_, rfl⟩ | hd
  · decide
  · exact natDec_isDigit x d hd

theorem padNat_length {w x : Nat} (hw : 0 < w) (h : x < 10 ^ w) : (padNat w x).length = w := by
  have := natDec_length_le hw h
  simp [padNat]; omega

theorem padNat_length_ge (w x : Nat) : w ≤ (padNat w x).length := by
  simp [padNat]; omega

theorem decVal_padNat (w x : Nat) : decVal (padNat w x) = x := by
  unfold padNat
  rw [decVal_append, decVal_zeros, natDec_decVal]; omega

theorem padNat2_cases {x : Nat} (h : x < 100) : ∃ a b, padNat 2 x = [a, b] ∧ isDigit a = true ∧ isDigit b = true ∧
    decVal [a, b] = x := by
  have hl := padNat_length (w := 2) (by omega) (x := x) (by omega)
  match hp : padNat 2 x, hl with
  | [a, b], _ =>
    have hd := padNat_digits 2 x
    rw [hp] at hd
    exact ⟨a, b, rfl, (isDigit_iff a).mpr (hd a (by simp)), (isDigit_iff b).mpr (hd b (by simp)),
      by rw [← hp]; exact decVal_padNat 2 x⟩

theorem getnum2_pad {x : Nat} (h : x < 100) (r : Bytes) : getnum2 (padNat 2 x ++ r) = some (x, r) := by
  obtain ⟨a, b, hp, ha, hb, hv⟩ := padNat2_cases h
  rw [hp]
  simp [getnum2, ha, hb, hv]

theorem getnum12_pad {x : Nat} (h : x < 100) (r : Bytes) : getnum12 (padNat 2 x ++ r) = some (x, r) := by
  obtain ⟨a, b, hp, ha, hb, hv⟩ := padNat2_cases h
  rw [hp]
  simp [getnum12, ha, hb, hv]

theorem getyear_pad {y : Nat} (h : y < 10000) (r : Bytes) : getyear (padNat 4 y ++ r) = some (y, r) := by
  have hl := padNat_length (w := 4) (by omega) (x := y) (by omega)
  have ht : (padNat 4 y ++ r).take 4 = padNat 4 y := by
    have := List.take_left (l₁ := padNat 4 y) (l₂ := r); rwa [hl] at this
  have hd : (padNat 4 y ++ r).drop 4 = r := by
    have := List.drop_left (l₁ := padNat 4 y) (l₂ := r); rwa [hl] at this
  unfold getyear
  rw [if_neg (by simp [hl]), ht, hd, if_pos, decVal_padNat]
  simp only [List.all_eq_true]
  intro d hd
  exact (isDigit_iff d).mpr (padNat_digits 4 y d hd)

theorem skipByte_cons (c : UInt8) (r : Bytes) : skipByte c (c :: r) = some r := by simp [skipByte]

theorem trimZeros_spec (b : Bytes) : ∃ k, b = trimZeros b ++ List.replicate k 48 := by
  unfold trimZeros
  refine ⟨(b.reverse.takeWhile (· == 48)).length, ?_⟩
  have h := List.takeWhile_append_dropWhile (p := (· == (48 : UInt8))) (l := b.reverse)
  have h2 : b.reverse.takeWhile (· == 48) = List.replicate (b.reverse.takeWhile (· == 48)).length 48 := by
    apply List.eq_replicate_iff.mpr
    refine ⟨rfl, ?_⟩
    intro x hx
    have := List.all_takeWhile (p := (· == (48 : UInt8))) (l := b.reverse)
    rw [List.all_eq_true] at this
    simpa using this x hx
  have h3 := congrArg List.reverse h
  simp only [List.reverse_append, List.reverse_reverse] at h3
  conv => lhs; rw [← h3]
  congr 1
  rw [h2]; simp

theorem trimZeros_idem_last (b : Bytes) : (trimZeros b).getLast? ≠ some 48 := by
  unfold trimZeros
  rw [List.getLast?_reverse]
  intro h
  have := List.head?_dropWhile_not (p := (· == (48 : UInt8))) (l := b.reverse)
  rw [h] at this
  simp at this

/-- The bytes at which a fraction stops. -/
def NotFrac (r : Bytes) : Prop := ∀ c, r.head? = some c → ¬ Spec.IsDigit c ∧ c ≠ 46 ∧ c ≠ 44

theorem take6_pad9 {n : Nat} (h : n < 10 ^ 9) : decVal ((padNat 9 n).take 6) = n / 1000 ∧ ((padNat 9 n).take 6).length = 6 := by
  have hl := padNat_length (w := 9) (by omega) (x := n) h
  have hs := List.take_append_drop 6 (padNat 9 n)
  have hv := decVal_padNat 9 n
  rw [← hs, decVal_append] at hv
  have h3 : ((padNat 9 n).drop 6).length = 3 := by simp [hl]
  have hlt := decVal_lt ((padNat 9 n).drop 6) (fun d hd => padNat_digits 9 n d (List.mem_of_mem_drop hd))
  rw [h3] at hv hlt
  refine ⟨by omega, by simp [hl]⟩

theorem getfrac_fmt {n : Nat} (h : n < 10 ^ 9) (r : Bytes) (hr : NotFrac r) :
    getfrac (fmtFrac n ++ r) = (n / 1000 * 1000, r) := by
  have hnone : getfrac r = (0, r) := by
    unfold getfrac
    split
    · next c d r' =>
      rw [if_neg]
      rintro ⟨h1, _⟩
      have := hr c rfl
      rcases h1 with rfl | rfl
      · exact this.2.1 rfl
      · exact this.2.2 rfl
    · rfl
  obtain ⟨hv, hl⟩ := take6_pad9 h
  unfold fmtFrac
  by_cases h0 : n = 0
  · subst h0; simp [hnone]
  rw [if_neg h0]
  obtain ⟨k, hk⟩ := trimZeros_spec ((padNat 9 n).take 6)
  have hdig : ∀ d ∈ trimZeros ((padNat 9 n).take 6), Spec.IsDigit d := by
    intro d hd
    have : d ∈ (padNat 9 n).take 6 := by rw [hk]; simp [hd]
    exact padNat_digits 9 n d (List.mem_of_mem_take this)
  generalize htz : trimZeros ((padNat 9 n).take 6) = ds at hk hdig
  rw [hk, decVal_append, decVal_zeros] at hv
  rw [hk] at hl
  simp only [List.length_append, List.length_replicate] at hl
  simp only [List.length_replicate] at hv
  simp only
  cases ds with
  | nil =>
    simp only [if_true, List.nil_append]
    rw [hnone]
    simp [decVal] at hv
    rw [← hv]
  | cons d ds =>
    rw [if_neg (by simp)]
    simp only [List.cons_append]
    unfold getfrac
    have hd0 := (isDigit_iff d).mpr (hdig d (by simp))
    simp only
    rw [if_pos ⟨Or.inl trivial, hd0⟩]
    have hall : ∀ x ∈ d :: ds, isDigit x = true := fun x hx => (isDigit_iff x).mpr (hdig x hx)
    have hr0 : r.takeWhile isDigit = [] ∧ r.dropWhile isDigit = r := by
      cases r with
      | nil => exact ⟨rfl, rfl⟩
      | cons c r =>
        have := (hr c rfl).1
        have hc : isDigit c = false := by
          cases hc : isDigit c with
          | false => rfl
          | true => exact absurd ((isDigit_iff c).mp hc) this
        simp [hc]
    have e1 : (d :: (ds ++ r)).takeWhile isDigit = d :: ds := by
      rw [show d :: (ds ++ r) = (d :: ds) ++ r from rfl, List.takeWhile_append_of_pos hall, hr0.1]; simp
    have e2 : (d :: (ds ++ r)).dropWhile isDigit = r := by
      rw [show d :: (ds ++ r) = (d :: ds) ++ r from rfl, List.dropWhile_append_of_pos hall, hr0.2]
    rw [e1, e2]
    have hlen : (d :: ds).length ≤ 6 := by omega
    rw [List.take_of_length_le (by omega : (d :: ds).length ≤ 9)]
    congr 1
    have hk' : 9 - (d :: ds).length = k + 3 := by omega
    rw [hk', Nat.pow_add, ← Nat.mul_assoc]
    have : decVal (d :: ds) * 10 ^ k = n / 1000 := by omega
    rw [this]

theorem getzone_signed (a b c d : UInt8) (ha : isDigit a = true) (hb : isDigit b = true) (hc : isDigit c = true)
    (hd : isDigit d = true) (h1 : decVal [a, b] ≤ 24) (h2 : decVal [c, d] ≤ 60) :
    getzone [43, a, b, 58, c, d] = some ((((decVal [a, b] * 60 + decVal [c, d]) * 60 : Nat) : Int), []) ∧
    getzone [45, a, b, 58, c, d] = some (-(((decVal [a, b] * 60 + decVal [c, d]) * 60 : Nat) : Int), []) := by
  have hn : ¬ (decVal [a, b] > 24 ∨ decVal [c, d] > 60) := by omega
  constructor
  · rw [getzone.eq_def]
    simp only [getnum2, ne_eq]
    split
    · next h => simp at h
    · next sg h1 h2 cc m1 m2 r _ h =>
      simp only [List.cons.injEq] at h
      obtain ⟨rfl, rfl, rfl, rfl, rfl, rfl, rfl⟩ := h
      simp [ha, hb, hc, hd, hn]
    · next h1 h => exact absurd rfl (h _ _ _ _ _ _ _)
  · rw [getzone.eq_def]
    simp only [getnum2, ne_eq]
    split
    · next h => simp at h
    · next sg h1 h2 cc m1 m2 r _ h =>
      simp only [List.cons.injEq] at h
      obtain ⟨rfl, rfl, rfl, rfl, rfl, rfl, rfl⟩ := h
      simp [ha, hb, hc, hd, hn]
    · next h1 h => exact absurd rfl (h _ _ _ _ _ _ _)

theorem getzone_fmt {off : Int} (h0 : -90000 < off) (h1 : off < 90000) (hm : off % 60 = 0) :
    getzone (fmtZone off) = some (off, []) := by
  unfold fmtZone
  by_cases hz : off = 0
  · subst hz; rfl
  rw [if_neg hz]
  simp only
  have hq : off = 60 * off.tdiv 60 := by
    have := Int.mul_tdiv_add_tmod off 60
    have h2 : off.tmod 60 = 0 := by
      have : (60 : Int) ∣ off := Int.dvd_of_emod_eq_zero hm
      exact Int.tmod_eq_zero_of_dvd this
    omega
  generalize off.tdiv 60 = z at hq
  have hz1 : z.natAbs / 60 < 25 := by omega
  have hz2 : z.natAbs % 60 < 60 := by omega
  obtain ⟨a, b, hp1, ha, hb, hv1⟩ := padNat2_cases (x := z.natAbs / 60) (by omega)
  obtain ⟨c, d, hp2, hc, hd, hv2⟩ := padNat2_cases (x := z.natAbs % 60) (by omega)
  rw [hp1, hp2]
  simp only [List.cons_append, List.nil_append]
  obtain ⟨g1, g2⟩ := getzone_signed a b c d ha hb hc hd (by omega) (by omega)
  rw [hv1, hv2] at g1 g2
  by_cases hs : z < 0
  · simp only [hs, if_true]
    rw [g2]
    simp only [Option.some.injEq, Prod.mk.injEq, and_true]
    omega
  · simp only [hs, if_false]
    rw [g1]
    simp only [Option.some.injEq, Prod.mk.injEq, and_true]
    omega

theorem fmtZone_notFrac (off : Int) : NotFrac (fmtZone off) := by
  intro c hc
  unfold fmtZone at hc
  split at hc
  · simp at hc; subst hc; decide
  · simp only [List.head?_cons, Option.some.injEq] at hc
    subst hc
    split <;> decide

/-! ### No byte of a timestamp is a space or a control character -/

theorem digit_not_sp {d : UInt8} (h : Spec.IsDigit d) : 33 ≤ d.toNat ∧ d.toNat ≤ 126 := by
  simp only [Spec.IsDigit] at h; omega

theorem fmtFrac_digits (n : Nat) : ∀ d ∈ fmtFrac n, d = 46 ∨ Spec.IsDigit d := by
  intro d hd
  unfold fmtFrac at hd
  split at hd
  · simp at hd
  · simp only at hd
    split at hd
    · simp at hd
    · simp only [List.mem_cons] at hd
      rcases hd with rfl | hd
      · exact Or.inl rfl
      · right
        obtain ⟨k, hk⟩ := trimZeros_spec ((padNat 9 n).take 6)
        have : d ∈ (padNat 9 n).take 6 := by rw [hk]; simp [hd]
        exact padNat_digits 9 n d (List.mem_of_mem_take this)

theorem fmtZone_print (off : Int) : ∀ d ∈ fmtZone off, 33 ≤ d.toNat ∧ d.toNat ≤ 126 := by
  intro d hd
  unfold fmtZone at hd
  split at hd
  · simp at hd; subst hd; decide
  · simp only [List.mem_cons, List.mem_append, List.not_mem_nil, or_false] at hd
    rcases hd with rfl | (hd | rfl) | hd
    · split <;> decide
    · exact digit_not_sp (padNat_digits _ _ d hd)
    · decide
    · exact digit_not_sp (padNat_digits _ _ d hd)

theorem format_print (t : Time) : ∀ d ∈ t.format, 33 ≤ d.toNat ∧ d.toNat ≤ 126 := by
  intro d hd
  unfold format at hd
  simp only [List.mem_append, List.mem_cons, List.not_mem_nil, or_false] at hd
  rcases hd with (((((((((((hd | rfl) | hd) | rfl) | hd) | rfl) | hd) | rfl) | hd) | rfl) | hd) | hd) | hd
  · unfold padInt at hd
    split at hd
    · simp only [List.mem_cons] at hd
      rcases hd with rfl | hd
      · decide
      · exact digit_not_sp (padNat_digits _ _ d hd)
    · exact digit_not_sp (padNat_digits _ _ d hd)
  · decide
  · exact digit_not_sp (padNat_digits _ _ d hd)
  · decide
  · exact digit_not_sp (padNat_digits _ _ d hd)
  · decide
  · exact digit_not_sp (padNat_digits _ _ d hd)
  · decide
  · exact digit_not_sp (padNat_digits _ _ d hd)
  · decide
  · exact digit_not_sp (padNat_digits _ _ d hd)
  · rcases fmtFrac_digits _ d hd with rfl | h
    · decide
    · exact digit_not_sp h
  · exact fmtZone_print _ d hd

/-- A timestamp has at least 20 bytes. -/
theorem format_length (t : Time) : 20 ≤ t.format.length := by
  unfold format
  have h1 : 4 ≤ (padInt 4 t.year).length := by
    unfold padInt
    split
    · have := padNat_length_ge 4 (-t.year).toNat; simp; omega
    · exact padNat_length_ge _ _
  have h2 := padNat_length_ge 2 t.month
  have h3 := padNat_length_ge 2 t.day
  have h4 := padNat_length_ge 2 t.hour
  have h5 := padNat_length_ge 2 t.minute
  have h6 := padNat_length_ge 2 t.second
  have h7 : 1 ≤ (fmtZone t.off).length := by
    unfold fmtZone; split <;> simp
  simp only [List.length_append, List.length_cons, List.length_nil]
  omega

theorem daysIn_eq {m : Nat} {y : Int} (hy : 0 ≤ y) : daysIn m y = Spec.monthDays m y.toNat := by
  obtain ⟨n, rfl⟩ : ∃ n : Nat, y = n := ⟨y.toNat, by omega⟩
  unfold daysIn Spec.monthDays isLeap
  simp only [Int.toNat_natCast, List.mem_cons, List.not_mem_nil, or_false]
  by_cases h2 : m = 2
  · rw [if_pos h2, if_pos h2]
    have : (((n : Int) % 4 == 0 && ((n : Int) % 100 != 0 || (n : Int) % 400 == 0)) = true) ↔
        (n % 4 = 0 ∧ (n % 100 ≠ 0 ∨ n % 400 = 0)) := by
      simp only [Bool.and_eq_true, Bool.or_eq_true, beq_iff_eq, bne_iff_ne]; omega
    by_cases hl : n % 4 = 0 ∧ (n % 100 ≠ 0 ∨ n % 400 = 0)
    · rw [if_pos (this.mpr hl), if_pos hl]
    · rw [if_neg (fun h => hl (this.mp h)), if_neg hl]
  · rw [if_neg h2, if_neg h2]

theorem daysIn_le (m : Nat) (y : Int) : daysIn m y ≤ 31 := by
  unfold daysIn; split
  · split <;> omega
  · split <;> omega

theorem parse_format {t : Time} (h : Valid t) : parse t.format = some t.microseconds := by
  unfold microseconds
  obtain ⟨hy, hmo, hd, hh, hmi, hs, hn, hof⟩ := h
  rw [← daysIn_eq hy.1] at hd
  have hd31 := daysIn_le t.month t.year
  have e : t.format = padNat 4 t.year.toNat ++ (45 :: (padNat 2 t.month ++ (45 :: (padNat 2 t.day ++ (84 ::
      (padNat 2 t.hour ++ (58 :: (padNat 2 t.minute ++ (58 :: (padNat 2 t.second ++
      (fmtFrac t.nsec ++ fmtZone t.off))))))))))) := by
    simp [format, padInt, Int.not_lt.mpr hy.1]
  unfold parse
  rw [e, getyear_pad (by omega)]
  simp only [Option.bind_eq_bind, Option.bind_some, skipByte_cons]
  rw [getnum2_pad (by omega)]
  simp only [Option.bind_some]
  rw [if_neg (by omega)]
  simp only [Option.bind_some, skipByte_cons]
  rw [getnum2_pad (by omega)]
  simp only [Option.bind_some, skipByte_cons]
  rw [getnum12_pad (by omega)]
  simp only [Option.bind_some]
  rw [if_neg (by omega)]
  simp only [Option.bind_some, skipByte_cons]
  rw [getnum2_pad (by omega)]
  simp only [Option.bind_some]
  rw [if_neg (by omega)]
  simp only [Option.bind_some, skipByte_cons]
  rw [getnum2_pad (by omega)]
  simp only [Option.bind_some]
  rw [if_neg (by omega), getfrac_fmt hn _ (fmtZone_notFrac _)]
  simp only
  rw [getzone_fmt hof.1 hof.2.1 hof.2.2]
  simp only [Option.bind_some]
  have hyy : ((t.year.toNat : Nat) : Int) = t.year := by omega
  rw [if_neg (by simp), hyy, if_neg (by omega)]

/-- Truncating to microseconds does not change the printed form. -/
theorem format_trunc {t : Time} (hn : t.nsec < 10 ^ 9) : t.microseconds.format = t.format := by
  unfold microseconds
  have key : fmtFrac (t.nsec / 1000 * 1000) = fmtFrac t.nsec := by
    have digits_inj : ∀ a b : Bytes, a.length = b.length → (∀ d ∈ a, Spec.IsDigit d) → (∀ d ∈ b, Spec.IsDigit d) →
        decVal a = decVal b → a = b := by
      intro a
      induction h : a.reverse generalizing a with
      | nil =>
        intro b hl _ _ _
        have : a = [] := by simpa using h
        subst this
        exact (List.length_eq_zero_iff.mp hl.symm).symm
      | cons x r ih =>
        intro b hl ha hb hv
        have hd : a = r.reverse ++ [x] := by
          have := congrArg List.reverse h; simpa using this
        subst hd
        rcases List.eq_nil_or_concat b with rfl | ⟨b', y, rfl⟩
        · simp at hl
        rw [List.concat_eq_append] at *
        rw [decVal_snoc, decVal_snoc] at hv
        have hx := ha x (by simp)
        have hy := hb y (by simp)
        simp only [Spec.IsDigit] at hx hy
        have hxy : x = y := UInt8.toNat_inj.mp (by omega)
        have := ih r.reverse (by simp) b' (by simpa using hl) (fun d hd => ha d (List.mem_append_left _ hd))
          (fun d hd => hb d (List.mem_append_left _ hd)) (by omega)
        rw [this, hxy]
    have hn2 : t.nsec / 1000 * 1000 < 10 ^ 9 := by omega
    obtain ⟨v1, l1⟩ := take6_pad9 hn
    obtain ⟨v2, l2⟩ := take6_pad9 hn2
    have e : (padNat 9 (t.nsec / 1000 * 1000)).take 6 = (padNat 9 t.nsec).take 6 :=
      digits_inj _ _ (by rw [l1, l2]) (fun d hd => padNat_digits _ _ d (List.mem_of_mem_take hd))
        (fun d hd => padNat_digits _ _ d (List.mem_of_mem_take hd)) (by rw [v1, v2]; omega)
    have small : ∀ n, n < 1000 → n ≠ 0 → trimZeros ((padNat 9 n).take 6) = [] := by
      intro n hn h0
      obtain ⟨v, l⟩ := take6_pad9 (n := n) (by omega)
      obtain ⟨v0, l0⟩ := take6_pad9 (n := 0) (by omega)
      have : (padNat 9 n).take 6 = (padNat 9 0).take 6 :=
        digits_inj _ _ (by rw [l, l0]) (fun d hd => padNat_digits _ _ d (List.mem_of_mem_take hd))
        (fun d hd => padNat_digits _ _ d (List.mem_of_mem_take hd)) (by rw [v, v0]; omega)
      rw [this]; decide +kernel
    unfold fmtFrac
    by_cases h1 : t.nsec < 1000
    · by_cases h0 : t.nsec = 0
      · rw [h0]
      · have : t.nsec / 1000 * 1000 = 0 := by omega
        rw [this, if_pos rfl, if_neg h0]
        simp only [small _ h1 h0, if_true]
    · have h2 : ¬ t.nsec / 1000 * 1000 = 0 := by omega
      have h3 : ¬ t.nsec = 0 := by omega
      rw [if_neg h2, if_neg h3, e]
  simp only [format, key]

end Time
end Syslog5424
