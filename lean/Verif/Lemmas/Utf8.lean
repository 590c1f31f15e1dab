import Verif.Model.Utf8
import Verif.Spec.Literal
import Verif.Lemmas.Basic
/-! # Lemmas: UTF-8 -/
namespace Syslog5424
open Spec

theorem encodeRune_eq (r : Nat) : encodeRune r = utf8All r := by
  unfold encodeRune utf8All utf8
  split
  · simp; omega
  · split
    · rename_i h; simp [show r < 65536 by omega]
    · rfl

theorem utf8All_ascii {r : Nat} (h : r < 128) : utf8All r = [UInt8.ofNat r] := by
  unfold utf8All utf8
  simp [show r < 65536 by omega, h]

/-! ## decoding -/

theorem utf8First_spec {c lo hi : UInt8} {n : Nat} (h : utf8First c = some (n, lo, hi)) :
    n = 2 ∧ 0xC2 ≤ c.toNat ∧ c.toNat ≤ 0xDF ∧ lo.toNat = 0x80 ∧ hi.toNat = 0xBF ∨
    n = 3 ∧ 0xE0 ≤ c.toNat ∧ c.toNat ≤ 0xEF ∧ 0x80 ≤ lo.toNat ∧ hi.toNat ≤ 0xBF ∧
      (c.toNat = 0xE0 → lo.toNat = 0xA0) ∧ (c.toNat = 0xED → hi.toNat = 0x9F) ∨
    n = 4 ∧ 0xF0 ≤ c.toNat ∧ c.toNat ≤ 0xF4 ∧ 0x80 ≤ lo.toNat ∧ hi.toNat ≤ 0xBF ∧
      (c.toNat = 0xF0 → lo.toNat = 0x90) ∧ (c.toNat = 0xF4 → hi.toNat = 0x8F) := by
  revert h
  unfold utf8First
  simp only [UInt8.lt_iff_toNat_lt, ← UInt8.toNat_inj]
  simp only [show (194 : UInt8).toNat = 194 from rfl, show (224 : UInt8).toNat = 224 from rfl,
    show (237 : UInt8).toNat = 237 from rfl, show (240 : UInt8).toNat = 240 from rfl,
    show (244 : UInt8).toNat = 244 from rfl]
  intro h
  repeat' split at h
  all_goals cases h
  all_goals (have e1 : (128 : UInt8).toNat = 128 := rfl)
  all_goals (have e2 : (191 : UInt8).toNat = 191 := rfl)
  all_goals (have e3 : (160 : UInt8).toNat = 160 := rfl)
  all_goals (have e4 : (159 : UInt8).toNat = 159 := rfl)
  all_goals (have e5 : (144 : UInt8).toNat = 144 := rfl)
  all_goals (have e6 : (143 : UInt8).toNat = 143 := rfl)
  all_goals omega

theorem ofNat_eq {n : Nat} {b : UInt8} (h : n = b.toNat) : UInt8.ofNat n = b := by subst h; simp

theorem decode2 {c b1 : UInt8} (hc : 0xC2 ≤ c.toNat) (hc' : c.toNat ≤ 0xDF) (h1 : 0x80 ≤ b1.toNat)
    (h1' : b1.toNat ≤ 0xBF) :
    Scalar (c.toNat % 32 * 64 + b1.toNat % 64) ∧ utf8All (c.toNat % 32 * 64 + b1.toNat % 64) = [c, b1] := by
  refine ⟨by unfold Scalar; omega, ?_⟩
  unfold utf8All utf8
  rw [if_pos (by omega), if_neg (by omega), if_pos (by omega), ofNat_eq (b := c) (by omega),
    ofNat_eq (b := b1) (by omega)]

theorem decode3 {c b1 b2 lo hi : UInt8} (hc : 0xE0 ≤ c.toNat) (hc' : c.toNat ≤ 0xEF) (h1 : lo.toNat ≤ b1.toNat)
    (h1' : b1.toNat ≤ hi.toNat) (hlo : 0x80 ≤ lo.toNat) (hhi : hi.toNat ≤ 0xBF)
    (hE0 : c.toNat = 0xE0 → lo.toNat = 0xA0) (hED : c.toNat = 0xED → hi.toNat = 0x9F)
    (h2 : 0x80 ≤ b2.toNat) (h2' : b2.toNat ≤ 0xBF) :
    Scalar (c.toNat % 16 * 4096 + b1.toNat % 64 * 64 + b2.toNat % 64) ∧
      utf8All (c.toNat % 16 * 4096 + b1.toNat % 64 * 64 + b2.toNat % 64) = [c, b1, b2] := by
  refine ⟨by unfold Scalar; omega, ?_⟩
  unfold utf8All utf8
  rw [if_pos (by omega), if_neg (by omega), if_neg (by omega), ofNat_eq (b := c) (by omega),
    ofNat_eq (b := b1) (by omega), ofNat_eq (b := b2) (by omega)]

theorem decode4 {c b1 b2 b3 lo hi : UInt8} (hc : 0xF0 ≤ c.toNat) (hc' : c.toNat ≤ 0xF4) (h1 : lo.toNat ≤ b1.toNat)
    (h1' : b1.toNat ≤ hi.toNat) (hlo : 0x80 ≤ lo.toNat) (hhi : hi.toNat ≤ 0xBF)
    (hF0 : c.toNat = 0xF0 → lo.toNat = 0x90) (hF4 : c.toNat = 0xF4 → hi.toNat = 0x8F)
    (h2 : 0x80 ≤ b2.toNat) (h2' : b2.toNat ≤ 0xBF) (h3 : 0x80 ≤ b3.toNat) (h3' : b3.toNat ≤ 0xBF) :
    Scalar (c.toNat % 8 * 262144 + b1.toNat % 64 * 4096 + b2.toNat % 64 * 64 + b3.toNat % 64) ∧
      utf8All (c.toNat % 8 * 262144 + b1.toNat % 64 * 4096 + b2.toNat % 64 * 64 + b3.toNat % 64) = [c, b1, b2, b3] := by
  refine ⟨by unfold Scalar; omega, ?_⟩
  unfold utf8All
  rw [if_neg (by omega), ofNat_eq (b := c) (by omega), ofNat_eq (b := b1) (by omega),
    ofNat_eq (b := b2) (by omega), ofNat_eq (b := b3) (by omega)]

theorem utf8Cont_spec {b : UInt8} (h : utf8Cont b = true) : 0x80 ≤ b.toNat ∧ b.toNat ≤ 0xBF := by
  simpa [utf8Cont, UInt8.le_iff_toNat_le] using h

/-- `DecodeRuneInString` finds a scalar value and the bytes that encode it, unless it finds nothing. -/
theorem decodeRune_spec (c : UInt8) (s : Bytes) (h : decodeRune (c :: s) ≠ (0xFFFD, 1)) :
    Scalar (decodeRune (c :: s)).1 ∧
      utf8All (decodeRune (c :: s)).1 ++ s.drop ((decodeRune (c :: s)).2 - 1) = c :: s := by
  by_cases hc : c < 0x80
  · have e : decodeRune (c :: s) = (c.toNat, 1) := by simp only [decodeRune]; rw [if_pos hc]
    have hc' : c.toNat < 128 := hc
    rw [e]
    refine ⟨by unfold Scalar; simp only; omega, ?_⟩
    simp [utf8All_ascii hc']
  · cases hf : utf8First c with
    | none => exact absurd (by simp only [decodeRune]; rw [if_neg hc, hf]) h
    | some x =>
      obtain ⟨n, lo, hi⟩ := x
      rcases utf8First_spec hf with ⟨rfl, h1, h2, h3, h4⟩ | ⟨rfl, h1, h2, h3, h4, h5, h6⟩ | ⟨rfl, h1, h2, h3, h4, h5, h6⟩
      · match s, h with
        | [], h => exact absurd (by simp only [decodeRune]; rw [if_neg hc, hf]; try rfl) h
        | b1 :: t, h =>
          by_cases hb : lo ≤ b1 ∧ b1 ≤ hi
          · have e : decodeRune (c :: b1 :: t) = (c.toNat % 32 * 64 + b1.toNat % 64, 2) := by
              simp only [decodeRune]; rw [if_neg hc, hf]; simp only; rw [if_pos hb]
            have hb' : lo.toNat ≤ b1.toNat ∧ b1.toNat ≤ hi.toNat := hb
            obtain ⟨hs, hu⟩ := decode2 (c := c) (b1 := b1) h1 h2 (by omega) (by omega)
            rw [e]
            exact ⟨hs, by simp only [hu]; simp⟩
          · exact absurd (by simp only [decodeRune]; rw [if_neg hc, hf]; simp only; rw [if_neg hb]) h
      · match s, h with
        | [], h => exact absurd (by simp only [decodeRune]; rw [if_neg hc, hf]; try rfl) h
        | [_], h => exact absurd (by simp only [decodeRune]; rw [if_neg hc, hf]; try rfl) h
        | b1 :: b2 :: t, h =>
          by_cases hb : (lo ≤ b1 ∧ b1 ≤ hi) ∧ utf8Cont b2 = true
          · have e : decodeRune (c :: b1 :: b2 :: t) =
                (c.toNat % 16 * 4096 + b1.toNat % 64 * 64 + b2.toNat % 64, 3) := by
              simp only [decodeRune]; rw [if_neg hc, hf]; simp only; rw [if_pos hb]
            have hb' : lo.toNat ≤ b1.toNat ∧ b1.toNat ≤ hi.toNat := hb.1
            have hb2 := utf8Cont_spec hb.2
            obtain ⟨hs, hu⟩ := decode3 (c := c) (b1 := b1) (b2 := b2) h1 h2 hb'.1 hb'.2 h3 h4 h5 h6 hb2.1 hb2.2
            rw [e]
            exact ⟨hs, by simp only [hu]; simp⟩
          · exact absurd (by simp only [decodeRune]; rw [if_neg hc, hf]; simp only; rw [if_neg hb]) h
      · match s, h with
        | [], h => exact absurd (by simp only [decodeRune]; rw [if_neg hc, hf]; try rfl) h
        | [_], h => exact absurd (by simp only [decodeRune]; rw [if_neg hc, hf]; try rfl) h
        | [_, _], h => exact absurd (by simp only [decodeRune]; rw [if_neg hc, hf]; try rfl) h
        | b1 :: b2 :: b3 :: t, h =>
          by_cases hb : (lo ≤ b1 ∧ b1 ≤ hi) ∧ utf8Cont b2 = true ∧ utf8Cont b3 = true
          · have e : decodeRune (c :: b1 :: b2 :: b3 :: t) =
                (c.toNat % 8 * 262144 + b1.toNat % 64 * 4096 + b2.toNat % 64 * 64 + b3.toNat % 64, 4) := by
              simp only [decodeRune]; rw [if_neg hc, hf]; simp only; rw [if_pos hb]
            have hb' : lo.toNat ≤ b1.toNat ∧ b1.toNat ≤ hi.toNat := hb.1
            have hb2 := utf8Cont_spec hb.2.1
            have hb3 := utf8Cont_spec hb.2.2
            obtain ⟨hs, hu⟩ := decode4 (c := c) (b1 := b1) (b2 := b2) (b3 := b3) h1 h2 hb'.1 hb'.2 h3 h4 h5 h6
              hb2.1 hb2.2 hb3.1 hb3.2
            rw [e]
            exact ⟨hs, by simp only [hu]; simp⟩
          · exact absurd (by simp only [decodeRune]; rw [if_neg hc, hf]; simp only; rw [if_neg hb]) h

/-- Decoding what was encoded. -/
theorem decodeRune_utf8All (r : Nat) (rest : Bytes) (h : Scalar r) :
    decodeRune (utf8All r ++ rest) = (r, (utf8All r).length) := by
  unfold Scalar at h
  have e1 : (128 : UInt8).toNat = 128 := rfl
  have e2 : (191 : UInt8).toNat = 191 := rfl
  have e3 : (160 : UInt8).toNat = 160 := rfl
  have e4 : (159 : UInt8).toNat = 159 := rfl
  have e5 : (144 : UInt8).toNat = 144 := rfl
  have e6 : (143 : UInt8).toNat = 143 := rfl
  have hf : ∀ n : Nat, n < 256 → (UInt8.ofNat n).toNat = n := fun n hn => by
    rw [UInt8.toNat_ofNat']; omega
  have cont : ∀ x : Nat, 0x80 ≤ x → x ≤ 0xBF → utf8Cont (UInt8.ofNat x) = true := by
    intro x h1 h2
    simp only [utf8Cont, Bool.and_eq_true, decide_eq_true_eq, UInt8.le_iff_toNat_le, hf x (by omega), e1, e2]
    omega
  by_cases h1 : r < 0x80
  · have e : utf8All r = [UInt8.ofNat r] := by unfold utf8All utf8; rw [if_pos (by omega), if_pos h1]
    rw [e]
    simp only [List.singleton_append, decodeRune]
    rw [if_pos (by rw [UInt8.lt_iff_toNat_lt, hf r (by omega)]; exact h1), hf r (by omega)]
    rfl
  have first : ∀ x : Nat, 0x80 ≤ x → x < 256 → ¬ UInt8.ofNat x < 128 := by
    intro x hx hx'
    rw [UInt8.lt_iff_toNat_lt, hf x hx', e1]; omega
  have u : ∀ x : Nat, x < 256 → utf8First (UInt8.ofNat x) =
      if x < 0xC2 then none else if x < 0xE0 then some (2, 0x80, 0xBF) else if x = 0xE0 then some (3, 0xA0, 0xBF)
      else if x = 0xED then some (3, 0x80, 0x9F) else if x < 0xF0 then some (3, 0x80, 0xBF)
      else if x = 0xF0 then some (4, 0x90, 0xBF) else if x < 0xF4 then some (4, 0x80, 0xBF)
      else if x = 0xF4 then some (4, 0x80, 0x8F) else none := by
    intro x hx
    have : ∀ x : Fin 256, utf8First (UInt8.ofNat x.val) =
      if x.val < 0xC2 then none else if x.val < 0xE0 then some (2, 0x80, 0xBF) else if x.val = 0xE0 then some (3, 0xA0, 0xBF)
      else if x.val = 0xED then some (3, 0x80, 0x9F) else if x.val < 0xF0 then some (3, 0x80, 0xBF)
      else if x.val = 0xF0 then some (4, 0x90, 0xBF) else if x.val < 0xF4 then some (4, 0x80, 0xBF)
      else if x.val = 0xF4 then some (4, 0x80, 0x8F) else none := by decide +kernel
    exact this ⟨x, hx⟩
  by_cases h2 : r < 0x800
  · have e : utf8All r = [UInt8.ofNat (0xC0 + r / 64), UInt8.ofNat (0x80 + r % 64)] := by
      unfold utf8All utf8; rw [if_pos (by omega), if_neg h1, if_pos h2]
    rw [e]
    simp only [List.cons_append, List.nil_append, decodeRune]
    rw [if_neg (first _ (by omega) (by omega)), u _ (by omega), if_neg (by omega), if_pos (by omega)]
    simp only
    rw [if_pos (by simp only [UInt8.le_iff_toNat_le, hf (0x80 + r % 64) (by omega), e1, e2]; omega),
      hf (0xC0 + r / 64) (by omega), hf (0x80 + r % 64) (by omega)]
    have fin : (0xC0 + r / 64) % 32 * 64 + (0x80 + r % 64) % 64 = r := by omega
    rw [fin]
    rfl
  by_cases h3 : r < 0x10000
  · have e : utf8All r = [UInt8.ofNat (0xE0 + r / 4096), UInt8.ofNat (0x80 + r / 64 % 64), UInt8.ofNat (0x80 + r % 64)] := by
      unfold utf8All utf8; rw [if_pos h3, if_neg h1, if_neg h2]
    rw [e]
    simp only [List.cons_append, List.nil_append, decodeRune]
    have hc := cont (0x80 + r % 64) (by omega) (by omega)
    have fin : (0xE0 + r / 4096) % 16 * 4096 + (0x80 + r / 64 % 64) % 64 * 64 + (0x80 + r % 64) % 64 = r := by omega
    rw [if_neg (first _ (by omega) (by omega)), u _ (by omega), if_neg (by omega), if_neg (by omega)]
    by_cases a : 0xE0 + r / 4096 = 0xE0
    · rw [if_pos a]
      simp only
      rw [if_pos ⟨by simp only [UInt8.le_iff_toNat_le, hf (0x80 + r / 64 % 64) (by omega), e3, e2]; omega, hc⟩,
        hf (0xE0 + r / 4096) (by omega), hf (0x80 + r / 64 % 64) (by omega), hf (0x80 + r % 64) (by omega), fin]
      rfl
    rw [if_neg a]
    by_cases b : 0xE0 + r / 4096 = 0xED
    · rw [if_pos b]
      simp only
      rw [if_pos ⟨by simp only [UInt8.le_iff_toNat_le, hf (0x80 + r / 64 % 64) (by omega), e1, e4]; omega, hc⟩,
        hf (0xE0 + r / 4096) (by omega), hf (0x80 + r / 64 % 64) (by omega), hf (0x80 + r % 64) (by omega), fin]
      rfl
    rw [if_neg b, if_pos (by omega)]
    simp only
    rw [if_pos ⟨by simp only [UInt8.le_iff_toNat_le, hf (0x80 + r / 64 % 64) (by omega), e1, e2]; omega, hc⟩,
      hf (0xE0 + r / 4096) (by omega), hf (0x80 + r / 64 % 64) (by omega), hf (0x80 + r % 64) (by omega), fin]
    rfl
  · have e : utf8All r = [UInt8.ofNat (0xF0 + r / 262144), UInt8.ofNat (0x80 + r / 4096 % 64), UInt8.ofNat (0x80 + r / 64 % 64),
        UInt8.ofNat (0x80 + r % 64)] := by
      unfold utf8All; rw [if_neg h3]
    rw [e]
    simp only [List.cons_append, List.nil_append, decodeRune]
    have hc := cont (0x80 + r % 64) (by omega) (by omega)
    have hc2 := cont (0x80 + r / 64 % 64) (by omega) (by omega)
    have fin : (0xF0 + r / 262144) % 8 * 262144 + (0x80 + r / 4096 % 64) % 64 * 4096 + (0x80 + r / 64 % 64) % 64 * 64 +
      (0x80 + r % 64) % 64 = r := by omega
    rw [if_neg (first _ (by omega) (by omega)), u _ (by omega), if_neg (by omega), if_neg (by omega), if_neg (by omega),
      if_neg (by omega), if_neg (by omega)]
    by_cases a : 0xF0 + r / 262144 = 0xF0
    · rw [if_pos a]
      simp only
      rw [if_pos ⟨by simp only [UInt8.le_iff_toNat_le, hf (0x80 + r / 4096 % 64) (by omega), e5, e2]; omega, hc2, hc⟩,
        hf (0xF0 + r / 262144) (by omega), hf (0x80 + r / 4096 % 64) (by omega), hf (0x80 + r / 64 % 64) (by omega),
        hf (0x80 + r % 64) (by omega), fin]
      rfl
    rw [if_neg a]
    by_cases b : 0xF0 + r / 262144 < 0xF4
    · rw [if_pos b]
      simp only
      rw [if_pos ⟨by simp only [UInt8.le_iff_toNat_le, hf (0x80 + r / 4096 % 64) (by omega), e1, e2]; omega, hc2, hc⟩,
        hf (0xF0 + r / 262144) (by omega), hf (0x80 + r / 4096 % 64) (by omega), hf (0x80 + r / 64 % 64) (by omega),
        hf (0x80 + r % 64) (by omega), fin]
      rfl
    rw [if_neg b, if_pos (by omega)]
    simp only
    rw [if_pos ⟨by simp only [UInt8.le_iff_toNat_le, hf (0x80 + r / 4096 % 64) (by omega), e1, e6]; omega, hc2, hc⟩,
      hf (0xF0 + r / 262144) (by omega), hf (0x80 + r / 4096 % 64) (by omega), hf (0x80 + r / 64 % 64) (by omega),
      hf (0x80 + r % 64) (by omega), fin]
    rfl

end Syslog5424
