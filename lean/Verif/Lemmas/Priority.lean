import Verif.Model.Priority
import Verif.Lemmas.Basic
/-! # Lemmas about priorities -/
namespace Syslog5424

theorem nat_and_248 (x : Nat) : x &&& 248 = (x / 8 % 32) * 8 := by
  have h : (248 : Nat) = 31 <<< 3 := rfl
  have e : (x / 8 % 32) * 8 = ((x >>> 3) &&& 31) <<< 3 := by
    rw [Nat.shiftRight_eq_div_pow, Nat.shiftLeft_eq,
      show (31 : Nat) = 2 ^ 5 - 1 from rfl, Nat.and_two_pow_sub_one_eq_mod]
  rw [e, h]
  apply Nat.eq_of_testBit_eq
  intro i
  simp only [Nat.testBit_and, Nat.testBit_shiftLeft, Nat.testBit_shiftRight]
  by_cases hi : 3 ≤ i
  · simp [hi]
  · simp [hi]

theorem nat_and_7 (x : Nat) : x &&& 7 = x % 8 := by
  rw [show (7 : Nat) = 2 ^ 3 - 1 from rfl, Nat.and_two_pow_sub_one_eq_mod]

theorem facility_eq (p : Int) : Priority.facility p = p % 256 / 8 * 8 := by
  unfold Priority.facility
  rw [BitVec.toInt_eq_toNat_of_lt]
  · rw [BitVec.toNat_and]
    show ((((BitVec.ofInt 64 p).toNat &&& 248 : Nat)) : Int) = _
    rw [nat_and_248]
    simp only [BitVec.toNat_ofInt]
    omega
  · rw [BitVec.toNat_and]
    show 2 * ((BitVec.ofInt 64 p).toNat &&& 248) < _
    rw [nat_and_248]; omega

theorem severity_eq (p : Int) : Priority.severity p = p % 8 := by
  unfold Priority.severity
  rw [BitVec.toInt_eq_toNat_of_lt]
  · rw [BitVec.toNat_and]
    show ((((BitVec.ofInt 64 p).toNat &&& 7 : Nat)) : Int) = _
    rw [nat_and_7]
    simp only [BitVec.toNat_ofInt]
    omega
  · rw [BitVec.toNat_and]
    show 2 * ((BitVec.ofInt 64 p).toNat &&& 7) < _
    rw [nat_and_7]; omega

/-- `|` of a multiple of 8 and a severity is a sum. -/
theorem or_eq_add {f s : Int} (hf : f % 8 = 0) (hf0 : 0 ≤ f) (hf1 : f < 2 ^ 62) (hs0 : 0 ≤ s) (hs : s < 8) :
    Priority.or f s = f + s := by
  have key : (BitVec.ofInt 64 f ||| BitVec.ofInt 64 s).toNat = f.toNat + s.toNat := by
    rw [BitVec.toNat_or]
    have h1 : (BitVec.ofInt 64 f).toNat = f.toNat := by
      simp only [BitVec.toNat_ofInt]; omega
    have h2 : (BitVec.ofInt 64 s).toNat = s.toNat := by
      simp only [BitVec.toNat_ofInt]; omega
    rw [h1, h2]
    have h3 : f.toNat = 2 ^ 3 * (f.toNat / 8) := by omega
    rw [h3]
    exact (Nat.two_pow_add_eq_or_of_lt (i := 3) (by omega : s.toNat < 2 ^ 3) _).symm
  unfold Priority.or
  rw [BitVec.toInt_eq_toNat_of_lt]
  · rw [key, Int.natCast_add, Int.toNat_of_nonneg hf0, Int.toNat_of_nonneg hs0]
  · rw [key]; omega

theorem unmarshalDigits_eq (tp : Nat) (ds : Bytes) :
    unmarshalDigits tp ds =
      if ds.all isDigit then some (ds.foldl (fun a d => a * 10 + (d.toNat - 48)) tp) else none := by
  induction ds generalizing tp with
  | nil => simp [unmarshalDigits]
  | cons v r ih =>
    simp only [unmarshalDigits]
    by_cases h : v < 48 ∨ v > 57
    · have : isDigit v = false := by
        simp only [isDigit, Bool.and_eq_false_iff, decide_eq_false_iff_not]
        rcases h with h | h
        · left; exact UInt8.not_le.mpr h
        · right; exact UInt8.not_le.mpr h
      simp [h, this]
    · have h1 : 48 ≤ v ∧ v ≤ 57 := by
        simp only [not_or, UInt8.not_lt] at h; exact h
      have h2 : isDigit v = true := by simp [isDigit, h1]
      have h3 : (v - 48).toNat = v.toNat - 48 := by
        rw [UInt8.toNat_sub_of_le _ _ h1.1]; rfl
      simp [h, ih, h2, h3]

/-- The shape test of `Unmarshal5424`. -/
theorem unmarshal_shape (d : Bytes) (h4 : 4 ≤ d.length) (h0 : d[0]? = some 60)
    (h1 : d[d.length - 1]? = some 49) (h2 : d[d.length - 2]? = some 62) :
    d = 60 :: (d.take (d.length - 2)).drop 1 ++ [62, 49] := by
  obtain ⟨a, r, rfl⟩ : ∃ a r, d = a :: r := by
    cases d with
    | nil => simp at h4
    | cons a r => exact ⟨a, r, rfl⟩
  simp at h0; subst h0
  obtain ⟨r1, y, hr1⟩ : ∃ r1 y, r = r1 ++ [y] := by
    have : r ≠ [] := by rintro rfl; simp at h4
    exact ⟨r.dropLast, r.getLast this, (List.dropLast_concat_getLast this).symm⟩
  subst hr1
  obtain ⟨r2, x, hr2⟩ : ∃ r2 x, r1 = r2 ++ [x] := by
    have : r1 ≠ [] := by rintro rfl; simp at h4
    exact ⟨r1.dropLast, r1.getLast this, (List.dropLast_concat_getLast this).symm⟩
  subst hr2
  have e1 : (60 :: (r2 ++ [x] ++ [y])).length = r2.length + 3 := by simp
  rw [e1] at h1 h2 ⊢
  simp at h1 h2
  subst h1 h2
  simp

theorem unmarshal_ok {p v : Priority} {d : Bytes} (h : Priority.unmarshal p d = (v, none)) :
    ∃ ds : Bytes, d = [60] ++ ds ++ [62, 49] ∧ 1 ≤ ds.length ∧ ds.length ≤ 3 ∧
      (∀ x ∈ ds, Spec.IsDigit x) ∧ v = (Spec.value ds : Nat) := by
  simp only [Priority.unmarshal] at h
  split at h
  · simp at h
  split at h
  · simp at h
  split at h
  · simp at h
  split at h
  · simp at h
  split at h
  · simp at h
  split at h
  · simp at h
  next h1 h2 h3 h4 h5 _ tp htp =>
    have h3' : d[0]? = some 60 := Decidable.not_not.mp h3
    have h4' : d[d.length - 1]? = some 49 := Decidable.not_not.mp h4
    have h5' : d[d.length - 2]? = some 62 := Decidable.not_not.mp h5
    have hs := unmarshal_shape d (by omega) h3' h4' h5'
    rw [unmarshalDigits_eq] at htp
    split at htp
    · next hall =>
      refine ⟨(d.take (d.length - 2)).drop 1, by simpa using hs, ?_, ?_, ?_, ?_⟩
      · simp; omega
      · simp; omega
      · intro x hx
        rw [List.all_eq_true] at hall
        exact (isDigit_iff x).mp (hall x hx)
      · simp only [Option.some.injEq] at htp
        simp only [Prod.mk.injEq, and_true] at h
        rw [← decVal_eq_value, ← h, ← htp]; rfl
    · simp at htp

theorem unmarshal_complete (p : Priority) (ds : Bytes) (h1 : 1 ≤ ds.length) (h3 : ds.length ≤ 3)
    (hd : ∀ x ∈ ds, Spec.IsDigit x) :
    Priority.unmarshal p ([60] ++ ds ++ [62, 49]) = (((Spec.value ds : Nat) : Int), none) := by
  have hall : ds.all isDigit = true := by
    simp only [List.all_eq_true]; intro x hx; exact (isDigit_iff x).mpr (hd x hx)
  have e1 : ([60] ++ ds ++ [62, 49] : Bytes).length = ds.length + 3 := by simp
  have t : (([60] ++ ds ++ [62, 49] : Bytes).take (ds.length + 3 - 2)).drop 1 = ds := by
    have : ([60] ++ ds ++ [62, 49] : Bytes) = (60 :: ds) ++ [62, 49] := by simp
    rw [this, show ds.length + 3 - 2 = (60 :: ds).length by simp, List.take_left]
    rfl
  have g1 : ([60] ++ ds ++ [62, 49] : Bytes)[ds.length + 3 - 1]? = some 49 := by
    simp
  have g2 : ([60] ++ ds ++ [62, 49] : Bytes)[ds.length + 3 - 2]? = some 62 := by
    simp
  simp only [Priority.unmarshal, e1]
  rw [if_neg (by omega), if_neg (by omega), if_neg (by simp), if_neg (by simp),
    if_neg (by simp), t, unmarshalDigits_eq, if_pos hall]
  simp [← decVal_eq_value, decVal]

theorem unmarshal_err {p v : Priority} {d : Bytes} {e : Err} (h : Priority.unmarshal p d = (v, some e)) :
    v = p := by
  simp only [Priority.unmarshal] at h
  repeat' split at h
  all_goals first
    | (simp only [Prod.mk.injEq] at h; exact h.1.symm)
    | (simp at h)

end Syslog5424
