import Verif.Model.ErrorText
import Verif.Spec.Literal
import Verif.Lemmas.Utf8
/-! # Lemmas: `strconv.Quote` writes Go string literals, in printable text -/
namespace Syslog5424
open Spec

/-! ## printable text -/

theorem Spec.Printable.nil : Printable [] := ⟨[], rfl, by simp⟩

theorem Spec.Printable.append {a b : Bytes} (ha : Printable a) (hb : Printable b) : Printable (a ++ b) := by
  obtain ⟨x, rfl, hx⟩ := ha
  obtain ⟨y, rfl, hy⟩ := hb
  refine ⟨x ++ y, by simp, ?_⟩
  intro r hr
  rcases List.mem_append.mp hr with h | h
  · exact hx r h
  · exact hy r h

theorem Spec.Printable.rune {r : Nat} (hs : Scalar r) (hc : ¬ Control r) : Printable (utf8All r) :=
  ⟨[r], by simp, by simp [hs, hc]⟩

theorem Spec.Printable.ascii {b : Bytes} (h : ∀ c ∈ b, 32 ≤ c.toNat ∧ c.toNat < 127) : Printable b := by
  refine ⟨b.map UInt8.toNat, ?_, ?_⟩
  · induction b with
    | nil => rfl
    | cons c r ih =>
      have hc := h c (by simp)
      simp only [List.map_cons, List.flatten_cons]
      rw [← ih (fun x hx => h x (by simp [hx]))]
      unfold utf8All utf8
      simp [show c.toNat < 65536 by omega, show c.toNat < 128 by omega]
  · intro r hr
    obtain ⟨c, hc, rfl⟩ := List.mem_map.mp hr
    have := h c hc
    unfold Scalar Control
    omega

theorem utf8All_bytes {r : Nat} (hs : Scalar r) (hc : ¬ Control r) : ∀ b ∈ utf8All r, 32 ≤ b.toNat ∧ b.toNat ≠ 127 := by
  unfold Scalar at hs
  unfold Control at hc
  unfold utf8All utf8
  intro b hb
  split at hb
  · split at hb
    · simp at hb; subst hb; simp; omega
    · split at hb
      · simp at hb; rcases hb with rfl | rfl <;> simp <;> omega
      · simp at hb; rcases hb with rfl | rfl | rfl <;> simp <;> omega
  · simp at hb; rcases hb with rfl | rfl | rfl | rfl <;> simp <;> omega

/-- No control byte is in printable text. -/
theorem Spec.Printable.bytes {t : Bytes} (h : Printable t) : ∀ b ∈ t, 32 ≤ b.toNat ∧ b.toNat ≠ 127 := by
  obtain ⟨rs, rfl, hr⟩ := h
  intro b hb
  obtain ⟨l, hl, hbl⟩ := List.mem_flatten.mp hb
  obtain ⟨r, hrr, rfl⟩ := List.mem_map.mp hl
  exact utf8All_bytes (hr r hrr).1 (hr r hrr).2 b hbl

theorem isPrint_not_control {table : Nat → Bool} {r : Nat} (h : isPrint table r = true) : ¬ Control r := by
  unfold isPrint at h
  unfold Control
  split at h
  · split at h
    · omega
    · split at h
      · omega
      · simp at h
  · omega

/-! ## hexadecimal -/

theorem lowerhex_toNat {n : Nat} (h : n < 16) : (lowerhex n).toNat = if n < 10 then 48 + n else 87 + n := by
  unfold lowerhex
  split <;> simp <;> omega

theorem lowerhex_isHex {n : Nat} (h : n < 16) : IsHex (lowerhex n) := by
  unfold IsHex
  rw [lowerhex_toNat h]
  split <;> omega

theorem hexDigit_lowerhex {n : Nat} (h : n < 16) : hexDigit (lowerhex n) = n := by
  unfold hexDigit
  rw [lowerhex_toNat h]
  split
  · split
    · omega
    · omega
  · split
    · omega
    · split <;> omega

theorem lowerhex_ascii {n : Nat} (h : n < 16) : 32 ≤ (lowerhex n).toNat ∧ (lowerhex n).toNat < 127 := by
  rw [lowerhex_toNat h]
  split <;> omega

/-! ## the pieces that are written -/

theorem byte_piece {n : Nat} (h : n < 256) :
    Piece (b!"\\x" ++ [lowerhex (n / 16), lowerhex (n % 16)]) [UInt8.ofNat n] := by
  have h1 : n / 16 < 16 := by omega
  have h2 : n % 16 < 16 := by omega
  have e : hexVal [lowerhex (n / 16), lowerhex (n % 16)] = n := by
    simp [hexVal, hexDigit_lowerhex h1, hexDigit_lowerhex h2]
    omega
  have := Piece.byte (ds := [lowerhex (n / 16), lowerhex (n % 16)]) rfl
    (by simp [lowerhex_isHex h1, lowerhex_isHex h2])
  rw [e] at this
  exact this

theorem byte_printable {n : Nat} (h : n < 256) :
    Printable (b!"\\x" ++ [lowerhex (n / 16), lowerhex (n % 16)]) := by
  apply Printable.ascii
  have h1 := lowerhex_ascii (n := n / 16) (by omega)
  have h2 := lowerhex_ascii (n := n % 16) (by omega)
  simp [h1, h2]

theorem little_piece {n : Nat} (h : n < 0x10000) (hs : Scalar n) :
    Piece (b!"\\u" ++ [lowerhex (n / 4096 % 16), lowerhex (n / 256 % 16), lowerhex (n / 16 % 16), lowerhex (n % 16)])
      (utf8All n) := by
  have hm : ∀ k : Nat, k % 16 < 16 := fun k => Nat.mod_lt _ (by decide)
  have e : hexVal [lowerhex (n / 4096 % 16), lowerhex (n / 256 % 16), lowerhex (n / 16 % 16), lowerhex (n % 16)] = n := by
    simp only [hexVal, List.foldl_cons, List.foldl_nil, hexDigit_lowerhex (hm _)]
    omega
  have := Piece.little
    (ds := [lowerhex (n / 4096 % 16), lowerhex (n / 256 % 16), lowerhex (n / 16 % 16), lowerhex (n % 16)]) rfl
    (by simp [lowerhex_isHex (hm _)]) (by rw [e]; exact hs)
  rw [e] at this
  exact this

theorem big_piece {n : Nat} (hs : Scalar n) :
    Piece (b!"\\U" ++ [lowerhex (n / 268435456 % 16), lowerhex (n / 16777216 % 16), lowerhex (n / 1048576 % 16),
      lowerhex (n / 65536 % 16), lowerhex (n / 4096 % 16), lowerhex (n / 256 % 16), lowerhex (n / 16 % 16),
      lowerhex (n % 16)]) (utf8All n) := by
  have hm : ∀ k : Nat, k % 16 < 16 := fun k => Nat.mod_lt _ (by decide)
  have hn : n < 0x110000 := by unfold Scalar at hs; omega
  have e : hexVal [lowerhex (n / 268435456 % 16), lowerhex (n / 16777216 % 16), lowerhex (n / 1048576 % 16),
      lowerhex (n / 65536 % 16), lowerhex (n / 4096 % 16), lowerhex (n / 256 % 16), lowerhex (n / 16 % 16),
      lowerhex (n % 16)] = n := by
    simp only [hexVal, List.foldl_cons, List.foldl_nil, hexDigit_lowerhex (hm _)]
    omega
  have := Piece.big
    (ds := [lowerhex (n / 268435456 % 16), lowerhex (n / 16777216 % 16), lowerhex (n / 1048576 % 16),
      lowerhex (n / 65536 % 16), lowerhex (n / 4096 % 16), lowerhex (n / 256 % 16), lowerhex (n / 16 % 16),
      lowerhex (n % 16)]) rfl
    (by simp [lowerhex_isHex (hm _)]) (by rw [e]; exact hs)
  rw [e] at this
  exact this

/-- A rune is written as one piece of a literal, which is printable. -/
theorem escapeRune_spec (table : Nat → Bool) {r : Nat} (hs : Scalar r) :
    Piece (escapeRune table r) (utf8All r) ∧ Printable (escapeRune table r) := by
  have hm : ∀ k : Nat, k % 16 < 16 := fun k => Nat.mod_lt _ (by decide)
  have ha : ∀ k : Nat, 32 ≤ (lowerhex (k % 16)).toNat ∧ (lowerhex (k % 16)).toNat < 127 :=
    fun k => lowerhex_ascii (hm k)
  unfold escapeRune
  by_cases h1 : r = 34 ∨ r = 92
  · rw [if_pos h1]
    rcases h1 with rfl | rfl
    · exact ⟨Piece.simple (by decide), Printable.ascii (by decide)⟩
    · exact ⟨Piece.simple (by decide), Printable.ascii (by decide)⟩
  rw [if_neg h1]
  by_cases hp : isPrint table r = true
  · rw [if_pos hp]
    have hc := isPrint_not_control hp
    rw [encodeRune_eq]
    exact ⟨Piece.char hs (by unfold Control at hc; omega) (by omega) (by omega), Printable.rune hs hc⟩
  rw [if_neg hp]
  by_cases h : r = 7
  · rw [if_pos h]; subst h; exact ⟨Piece.simple (by decide), Printable.ascii (by decide)⟩
  rw [if_neg h]; clear h
  by_cases h : r = 8
  · rw [if_pos h]; subst h; exact ⟨Piece.simple (by decide), Printable.ascii (by decide)⟩
  rw [if_neg h]; clear h
  by_cases h : r = 12
  · rw [if_pos h]; subst h; exact ⟨Piece.simple (by decide), Printable.ascii (by decide)⟩
  rw [if_neg h]; clear h
  by_cases h : r = 10
  · rw [if_pos h]; subst h; exact ⟨Piece.simple (by decide), Printable.ascii (by decide)⟩
  rw [if_neg h]; clear h
  by_cases h : r = 13
  · rw [if_pos h]; subst h; exact ⟨Piece.simple (by decide), Printable.ascii (by decide)⟩
  rw [if_neg h]; clear h
  by_cases h : r = 9
  · rw [if_pos h]; subst h; exact ⟨Piece.simple (by decide), Printable.ascii (by decide)⟩
  rw [if_neg h]; clear h
  by_cases h : r = 11
  · rw [if_pos h]; subst h; exact ⟨Piece.simple (by decide), Printable.ascii (by decide)⟩
  rw [if_neg h]; clear h
  by_cases h : r < 32 ∨ r = 127
  · rw [if_pos h, utf8All_ascii (by omega)]
    exact ⟨byte_piece (by omega), byte_printable (by omega)⟩
  rw [if_neg h]
  by_cases hl : r < 0x10000
  · rw [if_pos hl]
    refine ⟨little_piece hl hs, Printable.append (Printable.ascii (by decide)) (Printable.ascii ?_)⟩
    intro c hc
    simp only [List.mem_cons, List.not_mem_nil, or_false] at hc
    rcases hc with rfl | rfl | rfl | rfl <;> exact ha _
  · rw [if_neg hl]
    refine ⟨big_piece hs, Printable.append (Printable.ascii (by decide)) (Printable.ascii ?_)⟩
    intro c hc
    simp only [List.mem_cons, List.not_mem_nil, or_false] at hc
    rcases hc with rfl | rfl | rfl | rfl | rfl | rfl | rfl | rfl <;> exact ha _

/-! ## the loop -/

theorem quoteLoop_skip (table : Nat → Bool) (k : Nat) (s : Bytes) :
    quoteLoop table k s = quoteLoop table 0 (s.drop k) := by
  induction s generalizing k with
  | nil => simp [quoteLoop]
  | cons c s ih =>
    cases k with
    | zero => rfl
    | succ k => rw [quoteLoop, ih]; rfl

/-- The loop writes a literal of its bytes, in printable text. -/
theorem quoteLoop_spec (table : Nat → Bool) (s : Bytes) :
    Inside (quoteLoop table 0 s) s ∧ Printable (quoteLoop table 0 s) := by
  induction hn : s.length using Nat.strongRecOn generalizing s with
  | _ n ih =>
    cases s with
    | nil => exact ⟨Inside.nil, Printable.nil⟩
    | cons c s =>
      rw [quoteLoop]
      by_cases hd : decodeRune (c :: s) = (0xFFFD, 1)
      · rw [if_pos hd]
        obtain ⟨h1, h2⟩ := ih s.length (by subst hn; simp) s rfl
        have hb := byte_piece (n := c.toNat) c.toNat_lt
        rw [show UInt8.ofNat c.toNat = c by simp] at hb
        exact ⟨Inside.cons hb h1, (byte_printable c.toNat_lt).append h2⟩
      · rw [if_neg hd, quoteLoop_skip]
        obtain ⟨hs, he⟩ := decodeRune_spec c s hd
        obtain ⟨h1, h2⟩ := ih (s.drop ((decodeRune (c :: s)).2 - 1)).length (by subst hn; simp; omega) _ rfl
        obtain ⟨e1, e2⟩ := escapeRune_spec table hs
        refine ⟨?_, e2.append h2⟩
        have := Inside.cons e1 h1
        rw [he] at this
        exact this

theorem quote_literal (table : Nat → Bool) (s : Bytes) : Literal (quote table s) s :=
  ⟨_, rfl, (quoteLoop_spec table s).1⟩

theorem quote_printable (table : Nat → Bool) (s : Bytes) : Printable (quote table s) :=
  Printable.append (Printable.append (Printable.ascii (by decide)) (quoteLoop_spec table s).2)
    (Printable.ascii (by decide))

end Syslog5424
