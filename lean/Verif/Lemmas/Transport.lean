import Verif.Model.Transport
import Verif.Lemmas.Basic
/-! # Lemmas about the transports -/
namespace Syslog5424

theorem wrap64_id {i : Int} (h0 : -(2 ^ 63) ≤ i) (h1 : i < 2 ^ 63) : wrap64 i = i := by
  unfold wrap64
  rw [Int.bmod_def]; split <;> omega

theorem wrap64_overflow {i : Int} (h0 : 2 ^ 63 ≤ i) (h1 : i < 2 ^ 64) : wrap64 i = i - 2 ^ 64 := by
  unfold wrap64
  rw [Int.bmod_def]; split <;> omega

theorem atoi_range {s : Bytes} {v : Int} (h : atoi s = some v) : -(2 ^ 63) ≤ v ∧ v < 2 ^ 63 := by
  unfold atoi at h
  simp only at h
  generalize (if (s.head? == some 45 || s.head? == some 43) = true then s.drop 1 else s) = ds at h
  split at h
  · simp at h
  split at h
  · split at h
    · next hd => simp only [Option.some.injEq] at h; omega
    · simp at h
  · split at h
    · next hd => simp only [Option.some.injEq] at h; omega
    · simp at h

theorem sp_not_digit : ¬ Spec.IsDigit SP := by decide

theorem indexByte_natDec_sp (n : Nat) (r : Bytes) : indexByte SP (natDec n ++ SP :: r) = some (natDec n).length :=
  indexByte_append (natDec_not_mem n sp_not_digit)

theorem natDec_length_le_19 {n : Nat} (h : n < 2 ^ 63) : (natDec n).length ≤ 19 :=
  natDec_length_le (by omega) (by omega)

/-- The decisions of the RFC 5425 `PrefixStrip` once the header has been read. -/
theorem prefixStrip_5425 (buf : Slice) (atEOF : Bool) (h20 : 20 ≤ buf.len) {sepPos : Nat} (hs : 0 < sepPos)
    (hi : indexByte SP buf.vis = some sepPos) {l : Int} (ha : atoi (buf.vis.take sepPos) = some l) :
    Transport.rfc5425.prefixStrip (some buf) atEOF =
      if (buf.len : Int) < wrap64 (((sepPos + 1 : Nat) : Int) + l) then
        if atEOF then do
          let d ← buf.from_ ((sepPos + 1 : Nat) : Int)
          return (some d, none, some .incomplete)
        else .ret (none, none, none)
      else do
        let d ← buf.sub ((sepPos + 1 : Nat) : Int) (wrap64 (((sepPos + 1 : Nat) : Int) + l))
        let r ← buf.from_ (wrap64 (((sepPos + 1 : Nat) : Int) + l))
        return (some d, some r, none) := by
  unfold Transport.prefixStrip
  have h0 : buf.len ≠ 0 := by omega
  have h1 : ¬ buf.len < 20 := by omega
  simp only [h0, h1, if_false, hi]
  obtain ⟨k, rfl⟩ : ∃ k, sepPos = k + 1 := ⟨sepPos - 1, by omega⟩
  simp only [ha]
  rfl

theorem prefixStrip_5425_frame (d suffix spare : Bytes) (atEOF : Bool)
    (hd : d.length + 20 < 2 ^ 63)
    (h20 : 20 ≤ (natDec d.length ++ SP :: (d ++ suffix)).length) :
    Transport.rfc5425.prefixStrip (some ⟨natDec d.length ++ SP :: (d ++ suffix), spare⟩) atEOF =
      .ret (some ⟨d, suffix ++ spare⟩, some ⟨suffix, spare⟩, none) := by
  have hl := natDec_length_le_19 (n := d.length) (by omega)
  have hp := natDec_length_pos d.length
  have ht : (natDec d.length ++ SP :: (d ++ suffix)).take (natDec d.length).length = natDec d.length := by simp
  have ha := atoi_natDec (n := d.length) (by omega)
  rw [prefixStrip_5425 ⟨natDec d.length ++ SP :: (d ++ suffix), spare⟩ atEOF h20 hp
    (indexByte_natDec_sp _ _) (by rw [ht]; exact ha)]
  have hw : wrap64 (((natDec d.length).length + 1 : Nat) + (d.length : Int))
      = (((natDec d.length).length + 1 + d.length : Nat) : Int) := by
    rw [wrap64_id] <;> omega
  rw [hw]
  rw [if_neg (by simp [Slice.len]; omega)]
  rw [Slice.sub_nat (by omega) (by simp [Slice.len]; omega), Slice.from_nat (by simp [Slice.len]; omega)]
  simp only [Out.ret_bind, Out.pure_eq]
  have e : natDec d.length ++ SP :: (d ++ suffix) = (natDec d.length ++ [SP] ++ d) ++ suffix := by simp
  have e2 : (natDec d.length).length + 1 + d.length = (natDec d.length ++ [SP] ++ d).length := by simp; omega
  rw [e, e2, List.take_left, List.drop_left]
  have e3 : (natDec d.length).length + 1 = (natDec d.length ++ [SP]).length := by simp
  rw [e3, List.drop_left]

/-- A buffer that ends inside the first frame. -/
theorem prefixStrip_5425_short (d spare : Bytes) (k : Nat)
    (hd : d.length + 20 < 2 ^ 63) (hk : k < (natDec d.length ++ SP :: d).length) :
    Transport.rfc5425.prefixStrip (some ⟨(natDec d.length ++ SP :: d).take k, spare⟩) false =
      .ret (none, none, none) := by
  have hl := natDec_length_le_19 (n := d.length) (by omega)
  have hp := natDec_length_pos d.length
  by_cases h20 : 20 ≤ k
  · have ht : (natDec d.length ++ SP :: d).take k = natDec d.length ++ SP :: d.take (k - (natDec d.length).length - 1) := by
      rw [List.take_append, List.take_of_length_le (by omega)]
      rw [show k - (natDec d.length).length = (k - (natDec d.length).length - 1) + 1 by omega,
        List.take_succ_cons]
      simp
    rw [ht]
    have hlen : (natDec d.length ++ SP :: d.take (k - (natDec d.length).length - 1)).length = k := by
      rw [← ht]; simp at hk ⊢; omega
    have ht2 : (natDec d.length ++ SP :: d.take (k - (natDec d.length).length - 1)).take (natDec d.length).length
        = natDec d.length := by simp
    rw [prefixStrip_5425 _ false (by simp only [Slice.len]; omega) hp (indexByte_natDec_sp _ _)
      (by rw [ht2]; exact atoi_natDec (by omega))]
    have hw : wrap64 (((natDec d.length).length + 1 : Nat) + (d.length : Int))
        = (((natDec d.length).length + 1 + d.length : Nat) : Int) := by
      rw [wrap64_id] <;> omega
    rw [hw, if_pos (by simp only [Slice.len]; rw [hlen]; simp at hk; omega)]
    rfl
  · unfold Transport.prefixStrip
    have : (Slice.mk ((natDec d.length ++ SP :: d).take k) spare).len < 20 := by simp; omega
    by_cases h0 : (Slice.mk ((natDec d.length ++ SP :: d).take k) spare).len = 0
    · simp only [h0, if_true]
    · simp only [h0, this, if_true, if_false]

theorem cutAt_nat (buf : Slice) (p q : Bytes) (c : UInt8) (h : buf.vis = p ++ c :: q) :
    Transport.cutAt buf p.length =
      .ret (some ⟨p, c :: q ++ buf.spare⟩, some ⟨q, buf.spare⟩, none) := by
  unfold Transport.cutAt
  have hl : buf.len = p.length + 1 + q.length := by simp [Slice.len, h]; omega
  have := Slice.sub_nat (s := buf) (i := 0) (j := p.length) (by omega) (by omega)
  rw [show ((0 : Nat) : Int) = 0 from rfl] at this
  rw [this, show ((p.length : Int) + 1) = ((p.length + 1 : Nat) : Int) by omega,
    Slice.from_nat (by omega)]
  simp [h]

/-- The terminator of a transport, if it has one. -/
def Transport.term : Transport → Option UInt8
  | .zeroEnded => some NUL
  | .lfEnded => some LF
  | .rfc5425 => none

theorem suffixStrip_term {t : Transport} {c : UInt8} (ht : t.term = some c) (p q spare : Bytes)
    (hp : c ∉ p) (atEOF : Bool) :
    t.suffixStrip (some ⟨p ++ c :: q, spare⟩) atEOF =
      .ret (some ⟨p, c :: q ++ spare⟩, some ⟨q, spare⟩, none) := by
  have hi := indexByte_append (q := q) hp
  cases t with
  | zeroEnded =>
    simp only [Transport.term, Option.some.injEq] at ht; subst ht
    simp only [Transport.suffixStrip, Slice.len, hi]
    rw [if_neg (by simp), cutAt_nat _ p q NUL rfl]
  | lfEnded =>
    simp only [Transport.term, Option.some.injEq] at ht; subst ht
    simp only [Transport.suffixStrip, Slice.len, hi]
    rw [if_neg (by simp), cutAt_nat _ p q LF rfl]
  | rfc5425 => simp [Transport.term] at ht

open Transport in
/-- The length header is usable: not negative, and the end of the frame fits in an int. -/
def Spec.HeaderInRange (sepPos : Nat) (l : Int) : Prop := 0 ≤ l ∧ (sepPos : Int) + 1 + l < 2 ^ 63

open Transport in
theorem prefixStrip_cases (buf : Slice) (atEOF : Bool) (hcap : buf.cap < 2 ^ 63) :
    (buf.len < 20 ∧ rfc5425.prefixStrip (some buf) atEOF = .ret (none, none, none)) ∨
    (20 ≤ buf.len ∧ (indexByte SP buf.vis = none ∨ indexByte SP buf.vis = some 0) ∧
      rfc5425.prefixStrip (some buf) atEOF = .ret (none, none, some .noHeader)) ∨
    (∃ n, 20 ≤ buf.len ∧ 0 < n ∧ indexByte SP buf.vis = some n ∧ atoi (buf.vis.take n) = none ∧
      rfc5425.prefixStrip (some buf) atEOF = .ret (none, none, some .invHeader)) ∨
    (∃ n l, 20 ≤ buf.len ∧ 0 < n ∧ indexByte SP buf.vis = some n ∧ atoi (buf.vis.take n) = some l ∧
      ¬ Spec.HeaderInRange n l ∧ rfc5425.prefixStrip (some buf) atEOF = .panic) ∨
    (∃ n l, 20 ≤ buf.len ∧ 0 < n ∧ indexByte SP buf.vis = some n ∧ atoi (buf.vis.take n) = some l ∧
      Spec.HeaderInRange n l ∧ buf.len < (n : Int) + 1 + l ∧
      rfc5425.prefixStrip (some buf) atEOF =
        if atEOF then .ret (some ⟨buf.vis.drop (n + 1), buf.spare⟩, none, some .incomplete)
        else .ret (none, none, none)) ∨
    (∃ (n k : Nat), 20 ≤ buf.len ∧ 0 < n ∧ indexByte SP buf.vis = some n ∧ atoi (buf.vis.take n) = some (k : Int) ∧
      n + 1 + k ≤ buf.len ∧
      rfc5425.prefixStrip (some buf) atEOF =
        .ret (some ⟨(buf.vis.take (n + 1 + k)).drop (n + 1), buf.vis.drop (n + 1 + k) ++ buf.spare⟩,
          some ⟨buf.vis.drop (n + 1 + k), buf.spare⟩, none)) := by
  rcases Nat.lt_or_ge buf.len 20 with h20 | h20
  · left
    refine ⟨h20, ?_⟩
    unfold prefixStrip
    have h2 : buf.len < 20 := h20
    by_cases h0 : buf.len = 0
    · simp only [h0, if_true]
    · simp only [h0, h2, if_true, if_false]
  have h0 : buf.len ≠ 0 := by omega
  have h1 : ¬ buf.len < 20 := by omega
  cases hi : indexByte SP buf.vis with
  | none =>
    right; left
    refine ⟨h20, by simp, ?_⟩
    unfold prefixStrip
    simp only [h0, h1, if_false, hi]
  | some n =>
    by_cases hn : n = 0
    · right; left
      subst hn
      refine ⟨h20, by simp, ?_⟩
      unfold prefixStrip
      simp only [h0, h1, if_false, hi]
    have hn : 0 < n := by omega
    have hnlt := indexByte_lt hi
    have hcap2 : buf.vis.length < 2 ^ 63 := by simp only [Slice.cap] at hcap; omega
    cases ha : atoi (buf.vis.take n) with
    | none =>
      right; right; left
      refine ⟨n, h20, hn, rfl, ha, ?_⟩
      unfold prefixStrip
      simp only [h0, h1, if_false, hi]
      obtain ⟨k, rfl⟩ : ∃ k, n = k + 1 := ⟨n - 1, by omega⟩
      simp only [ha]
    | some l =>
      right; right; right
      have hr := atoi_range ha
      have hp := prefixStrip_5425 buf atEOF h20 hn hi ha
      by_cases hir : Spec.HeaderInRange n l
      · right
        have hir' := hir
        obtain ⟨hl0, hl1⟩ := hir
        have hw : wrap64 (((n + 1 : Nat) : Int) + l) = ((n + 1 + l.toNat : Nat) : Int) := by
          rw [wrap64_id] <;> omega
        rw [hw] at hp
        by_cases hlt : (buf.len : Int) < (n : Int) + 1 + l
        · left
          refine ⟨n, l, h20, hn, rfl, ha, hir', hlt, ?_⟩
          rw [hp, if_pos (by omega)]
          cases atEOF with
          | false => rfl
          | true => rw [Slice.from_nat (by simp only [Slice.len]; omega)]; rfl
        · right
          have e : ((l.toNat : Nat) : Int) = l := by omega
          refine ⟨n, l.toNat, h20, hn, rfl, by rw [ha, e], by omega, ?_⟩
          rw [hp, if_neg (by omega), Slice.sub_nat (by omega) (by omega), Slice.from_nat (by omega)]
          rfl
      · left
        refine ⟨n, l, h20, hn, rfl, ha, hir, ?_⟩
        unfold Spec.HeaderInRange at hir
        rw [hp]
        have hneg : wrap64 (((n + 1 : Nat) : Int) + l) < ((n + 1 : Nat) : Int) := by
          by_cases hov : 2 ^ 63 ≤ ((n + 1 : Nat) : Int) + l
          · rw [wrap64_overflow hov (by omega)]; omega
          · rw [wrap64_id] <;> omega
        have hlen : ((n + 1 : Nat) : Int) ≤ buf.len := by simp only [Slice.len]; omega
        rw [if_neg (by omega)]
        unfold Slice.sub
        rw [if_neg (by omega)]
        rfl

end Syslog5424
