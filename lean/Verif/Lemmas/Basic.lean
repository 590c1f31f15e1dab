import Verif.Spec.Decimal
/-! # Lemmas about byte strings, `indexByte`, decimals and slices -/
namespace Syslog5424

/-! ## indexByte -/

theorem indexByte_none {c : UInt8} {s : Bytes} : indexByte c s = none ↔ c ∉ s := by
  induction s with
  | nil => simp [indexByte]
  | cons b r ih =>
    simp only [indexByte]
    split
    · next h => simp [h]
    · next h =>
      have h' : ¬ c = b := fun e => h e.symm
      simp [ih, h']

theorem indexByte_append {c : UInt8} {p q : Bytes} (h : c ∉ p) :
    indexByte c (p ++ c :: q) = some p.length := by
  induction p with
  | nil => simp [indexByte]
  | cons b r ih =>
    simp only [List.mem_cons, not_or] at h
    simp [indexByte, Ne.symm h.1, ih h.2]

theorem indexByte_some {c : UInt8} {s : Bytes} {i : Nat} (h : indexByte c s = some i) :
    ∃ p q, s = p ++ c :: q ∧ p.length = i ∧ c ∉ p := by
  induction s generalizing i with
  | nil => simp [indexByte] at h
  | cons b r ih =>
    simp only [indexByte] at h
    split at h
    · next hb =>
      simp at h; subst h; subst hb
      exact ⟨[], r, by simp, rfl, by simp⟩
    · next hb =>
      cases hr : indexByte c r with
      | none => simp [hr] at h
      | some j =>
        simp [hr] at h
        obtain ⟨p, q, h1, h2, h3⟩ := ih hr
        refine ⟨b :: p, q, by simp [h1], by simp [h2, h], ?_⟩
        simp only [List.mem_cons, not_or]
        exact ⟨fun h => hb h.symm, h3⟩

theorem indexByte_lt {c : UInt8} {s : Bytes} {i : Nat} (h : indexByte c s = some i) :
    i < s.length := by
  obtain ⟨p, q, h1, h2, _⟩ := indexByte_some h
  simp [h1]; omega

/-! ## Decimals -/

theorem decVal_append (a b : Bytes) :
    decVal (a ++ b) = b.foldl (fun a d => a * 10 + (d.toNat - 48)) (decVal a) := by
  simp [decVal, List.foldl_append]

theorem decVal_snoc (a : Bytes) (d : UInt8) : decVal (a ++ [d]) = decVal a * 10 + (d.toNat - 48) := by
  simp [decVal, List.foldl_append]

theorem decVal_eq_value (ds : Bytes) : decVal ds = Spec.value ds := by
  induction h : ds.reverse generalizing ds with
  | nil =>
    have : ds = [] := by simpa using h
    subst this; rfl
  | cons d r ih =>
    have hd : ds = r.reverse ++ [d] := by
      have := congrArg List.reverse h; simpa using this
    subst hd
    rw [decVal_snoc, ih r.reverse (by simp)]
    simp [Spec.value, Spec.valueRev]; omega

theorem isDigit_iff (b : UInt8) : isDigit b = true ↔ Spec.IsDigit b := by
  simp [isDigit, Spec.IsDigit, UInt8.le_iff_toNat_le]

theorem ofNat_digit_toNat {k : Nat} (h : k < 10) : (UInt8.ofNat (48 + k)).toNat = 48 + k := by
  simp [UInt8.toNat_ofNat]; omega

theorem natDec_lt {n : Nat} (h : n < 10) : natDec n = [UInt8.ofNat (48 + n)] := by
  rw [natDec]; simp [h]

theorem natDec_ge {n : Nat} (h : 10 ≤ n) :
    natDec n = natDec (n / 10) ++ [UInt8.ofNat (48 + n % 10)] := by
  rw [natDec]; simp [Nat.not_lt.mpr h]

theorem natDec_ne_nil (n : Nat) : natDec n ≠ [] := by
  by_cases h : n < 10
  · simp [natDec_lt h]
  · simp [natDec_ge (Nat.not_lt.mp h)]

theorem natDec_isDigit (n : Nat) : ∀ d ∈ natDec n, Spec.IsDigit d := by
  induction n using Nat.strongRecOn with
  | _ n ih =>
    by_cases h : n < 10
    · rw [natDec_lt h]
      simp only [List.mem_singleton, forall_eq, Spec.IsDigit, ofNat_digit_toNat h]; omega
    · have h' := Nat.not_lt.mp h
      rw [natDec_ge h']
      intro d hd
      simp only [List.mem_append, List.mem_singleton] at hd
      rcases hd with hd | hd
      · exact ih (n / 10) (by omega) d hd
      · subst hd
        simp only [Spec.IsDigit, ofNat_digit_toNat (Nat.mod_lt n (by omega : 10 > 0))]
        omega

theorem natDec_decVal (n : Nat) : decVal (natDec n) = n := by
  induction n using Nat.strongRecOn with
  | _ n ih =>
    by_cases h : n < 10
    · rw [natDec_lt h]
      simp [decVal]; omega
    · have h' := Nat.not_lt.mp h
      rw [natDec_ge h', decVal_snoc, ih (n / 10) (by omega),
        ofNat_digit_toNat (Nat.mod_lt n (by omega : 10 > 0))]
      omega

theorem natDec_head {n : Nat} (h : 0 < n) : (natDec n).head? ≠ some 48 := by
  induction n using Nat.strongRecOn with
  | _ n ih =>
    by_cases h10 : n < 10
    · rw [natDec_lt h10]
      simp only [List.head?_cons, ne_eq, Option.some.injEq]
      intro hc
      have := congrArg UInt8.toNat hc
      rw [ofNat_digit_toNat h10] at this
      simp at this; omega
    · have h' := Nat.not_lt.mp h10
      rw [natDec_ge h']
      have hne := natDec_ne_nil (n / 10)
      have := ih (n / 10) (by omega) (by omega)
      cases hd : natDec (n / 10) with
      | nil => exact absurd hd hne
      | cons a r => simpa [hd] using this

theorem natDec_isDecimal (n : Nat) : Spec.IsDecimal n (natDec n) := by
  refine ⟨natDec_ne_nil n, natDec_isDigit n, ?_, ?_⟩
  · rw [← decVal_eq_value, natDec_decVal]
  · intro h
    by_cases h0 : n = 0
    · subst h0; decide +kernel
    · exact absurd h (natDec_head (by omega))

theorem natDec_length_pos (n : Nat) : 0 < (natDec n).length := by
  have := natDec_ne_nil n
  exact List.length_pos_iff.mpr this

theorem digit_ne {d c : UInt8} (h : Spec.IsDigit d) (hc : ¬ Spec.IsDigit c) : d ≠ c := by
  rintro rfl; exact hc h

theorem natDec_not_mem {c : UInt8} (n : Nat) (hc : ¬ Spec.IsDigit c) : c ∉ natDec n :=
  fun h => hc (natDec_isDigit n c h)

theorem natDec_all_isDigit (n : Nat) : (natDec n).all isDigit = true := by
  simp only [List.all_eq_true]
  intro d hd
  exact (isDigit_iff d).mpr (natDec_isDigit n d hd)

/-- Number of digits of a bounded number. -/
theorem natDec_length_le {n k : Nat} (hk : 0 < k) (h : n < 10 ^ k) : (natDec n).length ≤ k := by
  induction k generalizing n with
  | zero => omega
  | succ k ih =>
    by_cases h10 : n < 10
    · simp [natDec_lt h10]
    · have h' := Nat.not_lt.mp h10
      rw [natDec_ge h']
      have hk0 : 0 < k := by
        rcases Nat.eq_zero_or_pos k with h0 | h0
        · subst h0; simp at h; omega
        · exact h0
      have : n / 10 < 10 ^ k := by
        rw [Nat.pow_succ] at h; omega
      have := ih hk0 this
      simp; omega

theorem decVal_lt (ds : Bytes) (h : ∀ d ∈ ds, Spec.IsDigit d) : decVal ds < 10 ^ ds.length := by
  induction hr : ds.reverse generalizing ds with
  | nil =>
    have : ds = [] := by simpa using hr
    subst this; simp [decVal]
  | cons d r ih =>
    have hd : ds = r.reverse ++ [d] := by
      have := congrArg List.reverse hr; simpa using this
    subst hd
    have h1 := ih r.reverse (fun x hx => h x (by simp at hx ⊢; exact Or.inl hx)) (by simp)
    have h2 := h d (by simp)
    rw [decVal_snoc]
    simp only [List.length_append, List.length_singleton, Nat.pow_succ]
    simp only [Spec.IsDigit] at h2
    omega

/-- `strconv.Atoi(strconv.Itoa(n)) = n`. -/
theorem atoi_natDec {n : Nat} (h : n < 2 ^ 63) : atoi (natDec n) = some (n : Int) := by
  have h45 : (natDec n).head? ≠ some 45 := by
    intro hh
    have := List.mem_of_head? hh
    exact absurd (natDec_isDigit n _ this) (by simp [Spec.IsDigit])
  have h43 : (natDec n).head? ≠ some 43 := by
    intro hh
    have := List.mem_of_head? hh
    exact absurd (natDec_isDigit n _ this) (by simp [Spec.IsDigit])
  simp [atoi, h45, h43, natDec_ne_nil, natDec_all_isDigit, natDec_decVal, h]

theorem atoi_nonempty {s : Bytes} {v : Int} (h : atoi s = some v) : s ≠ [] := by
  rintro rfl; simp [atoi] at h

/-! ## Slices -/

namespace Slice

@[simp] theorem ofNil_some (s : Slice) : ofNil (some s) = s := rfl
@[simp] theorem ofNil_none : ofNil none = ⟨[], []⟩ := rfl
@[simp] theorem len_mk (v sp : Bytes) : (Slice.mk v sp).len = v.length := rfl
@[simp] theorem cap_mk (v sp : Bytes) : (Slice.mk v sp).cap = v.length + sp.length := rfl

theorem from_nat {s : Slice} {i : Nat} (h : i ≤ s.len) :
    s.from_ (i : Int) = .ret ⟨s.vis.drop i, s.spare⟩ := by
  simp [from_, h]

theorem sub_nat {s : Slice} {i j : Nat} (h1 : i ≤ j) (h2 : j ≤ s.len) :
    s.sub (i : Int) (j : Int) = .ret ⟨(s.vis.take j).drop i, s.vis.drop j ++ s.spare⟩ := by
  have h3 : j ≤ s.vis.length := h2
  have h4 : j ≤ s.cap := by simp [cap]; omega
  simp only [sub, Int.natCast_nonneg, true_and, Int.toNat_natCast, Int.ofNat_le]
  rw [if_pos ⟨by omega, by omega⟩]
  simp [List.take_append_of_le_length h3, List.drop_append_of_le_length h3]

theorem at_nat {s : Slice} {i : Nat} {b : UInt8} (h : s.vis[i]? = some b) :
    s.at_ (i : Int) = .ret b := by
  simp [at_, h]

end Slice
end Syslog5424
