import Verif.Lemmas.Transport
/-! # Properties C15 to C18: framing -/
namespace Syslog5424
open Transport

/-! ## C15 -/

/-- C15: the RFC 5425 encoding is the decimal length of the payload, a space and the payload. -/
theorem C15_format (d : Bytes) :
    ∃ ds, Spec.IsDecimal d.length ds ∧ rfc5425.encode d = ds ++ b!" " ++ d :=
  ⟨natDec d.length, natDec_isDecimal _, rfl⟩

/-- C15 (partial): whatever the payload, the bytes that follow, the spare capacity of the read buffer
and the end-of-file flag, the payload and the following bytes are returned exactly, provided at least
20 bytes are present. Missing: shorter buffers, see `C15_short_frame_violated`. (Payloads are assumed
shorter than 2^63 - 20 bytes, as is every Go slice.) -/
theorem C15_round_trip_partial (d suffix spare : Bytes) (atEOF : Bool)
    (hd : d.length + 20 < 2 ^ 63) (h20 : 20 ≤ (rfc5425.encode d ++ suffix).length) :
    ∃ x y, rfc5425.prefixStrip (some ⟨rfc5425.encode d ++ suffix, spare⟩) atEOF = .ret (some x, some y, none) ∧
      x.vis = d ∧ y.vis = suffix := by
  have e : rfc5425.encode d ++ suffix = natDec d.length ++ SP :: (d ++ suffix) := by
    simp [encode]
  rw [e] at h20 ⊢
  exact ⟨_, _, prefixStrip_5425_frame d suffix spare atEOF hd h20, rfl, rfl⟩

/-- C15 is violated for short frames: a complete frame of less than 20 bytes with nothing after it is
never returned, even at end of file. -/
theorem C15_short_frame_violated (d spare : Bytes) (atEOF : Bool) (h : (rfc5425.encode d).length < 20) :
    rfc5425.prefixStrip (some ⟨rfc5425.encode d, spare⟩) atEOF = .ret (none, none, none) := by
  unfold prefixStrip
  have : (Slice.mk (rfc5425.encode d) spare).len < 20 := h
  by_cases h0 : (Slice.mk (rfc5425.encode d) spare).len = 0
  · simp only [h0, if_true]
  · simp only [h0, this, if_true, if_false]

example : (rfc5425.encode b!"<0>1 - - - - - -").length < 20 := by decide +kernel
example : rfc5425.prefixStrip (some ⟨rfc5425.encode [10, 0, 32, 53, 32] ++ b!" next frame bytes", b!"old"⟩) false
    = .ret (some ⟨[10, 0, 32, 53, 32], b!" next frame bytesold"⟩, some ⟨b!" next frame bytes", b!"old"⟩, none) := by
  decide +kernel

/-! ## C16 -/

/-- C16: for every payload without the terminator, the payload and the following bytes are returned
exactly, for both terminated transports, whatever follows. -/
theorem C16_round_trip (t : Transport) (ht : t = .lfEnded ∨ t = .zeroEnded) (d suffix spare : Bytes) (atEOF : Bool)
    (hd : ∀ c, t.term = some c → c ∉ d) :
    ∃ x y, t.suffixStrip (some ⟨t.encode d ++ suffix, spare⟩) atEOF = .ret (some x, some y, none) ∧
      x.vis = d ∧ y.vis = suffix := by
  rcases ht with rfl | rfl
  · have := suffixStrip_term (t := .lfEnded) rfl d suffix spare (hd LF rfl) atEOF
    exact ⟨_, _, by simpa [encode] using this, rfl, rfl⟩
  · have := suffixStrip_term (t := .zeroEnded) rfl d suffix spare (hd NUL rfl) atEOF
    exact ⟨_, _, by simpa [encode] using this, rfl, rfl⟩

/-- C16: a payload that contains the terminator is cut at its first terminator, and the rest of the
payload is presented as the beginning of the next frame. -/
theorem C16_cut (d1 d2 suffix spare : Bytes) (atEOF : Bool) :
    (LF ∉ d1 → ∃ x y, lfEnded.suffixStrip (some ⟨lfEnded.encode (d1 ++ b!"\n" ++ d2) ++ suffix, spare⟩) atEOF =
        .ret (some x, some y, none) ∧ x.vis = d1 ∧ y.vis = lfEnded.encode d2 ++ suffix) ∧
    (NUL ∉ d1 → ∃ x y, zeroEnded.suffixStrip (some ⟨zeroEnded.encode (d1 ++ [0] ++ d2) ++ suffix, spare⟩) atEOF =
        .ret (some x, some y, none) ∧ x.vis = d1 ∧ y.vis = zeroEnded.encode d2 ++ suffix) := by
  constructor
  · intro h
    have := suffixStrip_term (t := .lfEnded) rfl d1 (lfEnded.encode d2 ++ suffix) spare h atEOF
    exact ⟨_, _, by simpa [encode] using this, rfl, by simp [encode]⟩
  · intro h
    have := suffixStrip_term (t := .zeroEnded) rfl d1 (zeroEnded.encode d2 ++ suffix) spare h atEOF
    exact ⟨_, _, by simpa [encode] using this, rfl, by simp [encode]⟩

/-- C16: the encodings are the payload followed by the terminator. -/
theorem C16_format (d : Bytes) : lfEnded.encode d = d ++ b!"\n" ∧ zeroEnded.encode d = d ++ [0] := ⟨rfl, rfl⟩

example : lfEnded.suffixStrip (some ⟨lfEnded.encode b!"hello" ++ b!"<1", []⟩) false =
    .ret (some ⟨b!"hello", b!"\n<1"⟩, some ⟨b!"<1", []⟩, none) := by decide +kernel
example : lfEnded.term = some LF ∧ LF ∉ b!"hello" := by decide +kernel

/-! ## C17 -/

/-- C17: on every strict prefix of a frame, `PrefixStrip` asks for more data (all results nil). -/
theorem C17_incomplete_waits (d spare : Bytes) (k : Nat) (hd : d.length + 20 < 2 ^ 63)
    (hk : k < (rfc5425.encode d).length) :
    rfc5425.prefixStrip (some ⟨(rfc5425.encode d).take k, spare⟩) false = .ret (none, none, none) := by
  have e : rfc5425.encode d = natDec d.length ++ SP :: d := by simp [encode]
  rw [e] at hk ⊢
  exact prefixStrip_5425_short d spare k hd hk

example : rfc5425.prefixStrip (some ⟨(rfc5425.encode (List.replicate 100 65)).take 60, []⟩) false
    = .ret (none, none, none) := by decide +kernel

/-! ## C18 -/

/-- C18 (partial): whatever the peer sends, if `PrefixStrip` returns a frame, then the buffer is a
header that reads as the length of the frame, a space, the frame, and the returned rest: no byte
outside the received bytes is returned. -/
theorem C18_frame_in_buffer_partial (buf x y : Slice) (e : Option Err) (atEOF : Bool) (hcap : buf.cap < 2 ^ 63)
    (h : rfc5425.prefixStrip (some buf) atEOF = .ret (some x, some y, e)) :
    e = none ∧ ∃ hdr, buf.vis = hdr ++ b!" " ++ x.vis ++ y.vis ∧ atoi hdr = some (x.vis.length : Int) ∧
      SP ∉ hdr := by
  rcases prefixStrip_cases buf atEOF hcap with ⟨_, hp⟩ | ⟨_, _, hp⟩ | ⟨n, _, _, _, _, hp⟩ | ⟨n, l, _, _, _, _, _, hp⟩ |
    ⟨n, l, _, _, _, _, _, _, hp⟩ | ⟨n, k, h20, hn, hi, ha, hk, hp⟩
  · rw [hp] at h; simp at h
  · rw [hp] at h; simp at h
  · rw [hp] at h; simp at h
  · rw [hp] at h; simp at h
  · rw [hp] at h; split at h <;> simp at h
  · rw [hp] at h
    simp only [Out.ret.injEq, Prod.mk.injEq, Option.some.injEq] at h
    obtain ⟨rfl, rfl, rfl⟩ := h
    refine ⟨rfl, buf.vis.take n, ?_, ?_, ?_⟩
    · obtain ⟨p, q, hpq, hl, hnp⟩ := indexByte_some hi
      subst hl
      simp only [hpq]
      have e1 : (p ++ SP :: q).take p.length = p := by simp
      have e2 : ((p ++ SP :: q).take (p.length + 1 + k)).drop (p.length + 1) = q.take k := by
        have : p ++ SP :: q = (p ++ [SP]) ++ q := by simp
        rw [this, show p.length + 1 = (p ++ [SP]).length by simp, List.take_length_add_append,
          List.drop_left]
      have e3 : (p ++ SP :: q).drop (p.length + 1 + k) = q.drop k := by
        have : p ++ SP :: q = (p ++ [SP]) ++ q := by simp
        rw [this, show p.length + 1 = (p ++ [SP]).length by simp, List.drop_length_add_append]
      rw [e1, e2, e3]
      simp
    · have hkl : n + 1 + k ≤ buf.vis.length := hk
      simp only [ha, List.length_drop, List.length_take]
      congr 1; omega
    · obtain ⟨p, q, hpq, hl, hnp⟩ := indexByte_some hi
      subst hl; rw [hpq]; simpa using hnp

/-- C18 (partial): `PrefixStrip` panics exactly on a length header that is negative or so large that
the end of the frame overflows an int. Missing: on these headers it must not panic either, see
`C18_negative_header_violated`. -/
theorem C18_panics_exactly_partial (buf : Slice) (atEOF : Bool) (hcap : buf.cap < 2 ^ 63) :
    rfc5425.prefixStrip (some buf) atEOF = .panic ↔
      ∃ n l, 20 ≤ buf.len ∧ 0 < n ∧ indexByte SP buf.vis = some n ∧ atoi (buf.vis.take n) = some l ∧
        ¬ Spec.HeaderInRange n l := by
  constructor
  · intro h
    rcases prefixStrip_cases buf atEOF hcap with ⟨_, hp⟩ | ⟨_, _, hp⟩ | ⟨n, _, _, _, _, hp⟩ |
      ⟨n, l, h1, h2, h3, h4, h5, hp⟩ | ⟨n, l, _, _, _, _, _, _, hp⟩ | ⟨n, k, h20, hn, hi, ha, hk, hp⟩
    · rw [hp] at h; simp at h
    · rw [hp] at h; simp at h
    · rw [hp] at h; simp at h
    · exact ⟨n, l, h1, h2, h3, h4, h5⟩
    · rw [hp] at h; split at h <;> simp at h
    · rw [hp] at h; simp at h
  · rintro ⟨n, l, h20, hn, hi, ha, hr⟩
    have hcap2 : buf.vis.length < 2 ^ 63 := by simp only [Slice.cap] at hcap; omega
    rcases prefixStrip_cases buf atEOF hcap with ⟨h, _⟩ | ⟨_, h, _⟩ | ⟨n', _, _, h, h2, _⟩ |
      ⟨_, _, _, _, _, _, _, hp⟩ | ⟨n', l', _, _, h, h2, h3, _⟩ | ⟨n', k, _, _, h, h2, hk, _⟩
    · omega
    · rw [hi] at h; simp at h; omega
    · rw [hi] at h; simp at h; subst h; rw [ha] at h2; simp at h2
    · exact hp
    · rw [hi] at h; simp at h; subst h; rw [ha] at h2; simp at h2; subst h2; exact absurd h3 hr
    · rw [hi] at h; simp at h; subst h; rw [ha] at h2; simp at h2; subst h2
      exfalso; apply hr
      have : buf.len = buf.vis.length := rfl
      unfold Spec.HeaderInRange; omega

/-- C18 is violated: a remote peer crashes the receiver with a negative length header. -/
theorem C18_negative_header_violated :
    rfc5425.prefixStrip (some (.exact b!"-1 <0>1 - - - - - - hello")) false = .panic ∧
    rfc5425.prefixStrip (some (.exact b!"9223372036854775807 <0>1 - - - - - - hello")) false = .panic := by
  decide +kernel

/-- C18, side finding: headers outside the RFC 5425 grammar (sign, leading zeros) are accepted. -/
theorem C18_lenient_header :
    rfc5425.prefixStrip (some (.exact b!"+016 <0>1 - - - - - -x")) false =
      .ret (some ⟨b!"<0>1 - - - - - -", b!"x"⟩, some ⟨b!"x", []⟩, none) := by decide +kernel

end Syslog5424
