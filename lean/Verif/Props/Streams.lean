import Verif.Props.Decoder
/-! # C40: RFC 5425 streams that are cut anywhere -/
namespace Syslog5424
open Spec Transport Tok

theorem readsInt_natDec (n : Nat) : ReadsInt (natDec n) n :=
  ⟨[], natDec n, rfl, natDec_ne_nil n, natDec_isDigit n, Or.inl ⟨Or.inl rfl, by rw [(natDec_isDecimal n).2.2.1]⟩⟩

theorem space_natDec (n : Nat) : (32 : UInt8) ∉ natDec n := natDec_not_mem n (by decide)

/-- A part of a frame is not a frame. -/
theorem part_not_ready {p R : Bytes} (h : R <+: rfc5425.encode p) (hne : R.length < (rfc5425.encode p).length) :
    ¬ ∃ hdr p' suffix, Ready R hdr p' suffix := by
  rintro ⟨hdr, p', suffix, hr⟩
  obtain ⟨x, hx⟩ := h
  have e := hr.bytes
  rw [e] at hx
  have hx' : hdr ++ b!" " ++ (p' ++ suffix ++ x) = natDec p.length ++ b!" " ++ p := by
    rw [show natDec p.length ++ b!" " ++ p = rfc5425.encode p from rfl, ← hx]; simp
  obtain ⟨rfl, e2⟩ := first_space hr.header (space_natDec _) hx'
  have h1 := hr.length.unique (readsInt_natDec _)
  rw [e] at hne
  simp only [show rfc5425.encode p = natDec p.length ++ b!" " ++ p from rfl, List.length_append, List.length_singleton] at hne
  have : p'.length = p.length := by exact_mod_cast h1
  omega

/-- A stream of frames, wherever it is cut, decodes to the frames that are complete. -/
theorem decodes_prefix (ps : List Bytes) (hps : ∀ p ∈ ps, p.length < 2 ^ 62 ∧ 20 ≤ (rfc5425.encode p).length) :
    ∀ R, R <+: stream .rfc5425 ps → ∃ k rest, k ≤ ps.length ∧ Decodes R (ps.take k) rest ∧
      R = (ps.take k).flatMap rfc5425.encode ++ rest ∧
      (rest = [] ∧ k = ps.length ∨ ∃ p, ps[k]? = some p ∧ rest <+: rfc5425.encode p ∧ rest.length < (rfc5425.encode p).length) := by
  induction ps with
  | nil =>
    intro R h
    have : R = [] := by simpa [stream] using h
    subst this
    exact ⟨0, [], Nat.le_refl _, .stop (by rintro ⟨_, _, _, h⟩; have := h.enough; simp at this), rfl, Or.inl ⟨rfl, rfl⟩⟩
  | cons p ps ih =>
    intro R h
    have hst : stream .rfc5425 (p :: ps) = rfc5425.encode p ++ stream .rfc5425 ps := by simp [stream]
    rw [hst] at h
    rcases Nat.lt_or_ge R.length (rfc5425.encode p).length with hlt | hge
    · have hpre := List.prefix_of_prefix_length_le h (List.prefix_append _ _) (Nat.le_of_lt hlt)
      exact ⟨0, R, by simp, .stop (part_not_ready hpre hlt), by simp, Or.inr ⟨p, rfl, hpre, hlt⟩⟩
    · obtain ⟨R', rfl⟩ := List.prefix_of_prefix_length_le (List.prefix_append _ _) h hge
      rw [List.prefix_append_right_inj] at h
      obtain ⟨k, rest, h1, h2, h3, h4⟩ := ih (fun q hq => hps q (by simp [hq])) R' h
      obtain ⟨g1, g2⟩ := hps p (by simp)
      have hl : (natDec p.length).length ≤ 19 := natDec_length_le_19 (by omega)
      refine ⟨k + 1, rest, by simpa using h1, ?_, ?_, ?_⟩
      · rw [List.take_succ_cons]
        refine .take (hdr := natDec p.length) ⟨rfl, ?_, space_natDec _, readsInt_natDec _, by omega⟩ h2
        rw [List.length_append]; omega
      · rw [List.take_succ_cons, List.flatMap_cons, List.append_assoc, ← h3]
      · simpa using h4

theorem greatest_of_rest {ps : List Bytes} {R rest : Bytes} {k : Nat} (hk : k ≤ ps.length)
    (e : R = (ps.take k).flatMap rfc5425.encode ++ rest)
    (h : rest = [] ∧ k = ps.length ∨ ∃ p, ps[k]? = some p ∧ rest <+: rfc5425.encode p ∧ rest.length < (rfc5425.encode p).length) :
    Greatest rfc5425.encode ps R k := by
  refine ⟨hk, by rw [e]; exact List.prefix_append _ _, ?_⟩
  intro j hj hpre
  rcases h with ⟨_, rfl⟩ | ⟨p, hp, _, hlt⟩
  · exact hj
  · rcases Nat.lt_or_ge k j with h | h
    · exfalso
      have h1 := (flatMap_take_prefix rfc5425.encode ps (show k + 1 ≤ j from h)).trans hpre
      rw [List.take_add_one, hp, List.flatMap_append, e] at h1
      simp only [Option.toList_some, List.flatMap_cons, List.flatMap_nil, List.append_nil, List.prefix_append_right_inj] at h1
      have := h1.length_le
      omega
    · exact h

/-- **C40.** Payloads framed with RFC 5425, each frame having at least 20 bytes, wherever the stream is cut and however it
is cut into reads, also when the end of file comes early: as long as it does not crash the tokenizer has delivered exactly
the frames that are completely arrived, in order, each exactly once. -/
theorem C40_returned (ps : List Bytes) (hps : ∀ p ∈ ps, p.length < 2 ^ 62 ∧ 20 ≤ (rfc5425.encode p).length)
    (reads : List Read) (b : Bool) (s : State) (hrun : Run .rfc5425 init reads (.ret (b, s)))
    (hst : arrived reads <+: stream .rfc5425 ps) :
    ∃ k, Greatest rfc5425.encode ps (arrived reads) k ∧ Each (fun p d => Conveys p d.msg d.err) (ps.take k) s.out := by
  obtain ⟨qs, h1, h2⟩ := C80_decodes reads b s hrun
  obtain ⟨k, rest, g1, g2, g3, g4⟩ := decodes_prefix ps hps _ hst
  obtain ⟨rfl, rfl⟩ := C80_functional h1 g2
  exact ⟨k, greatest_of_rest g1 g3 g4, h2⟩

/-- **C40.** Exactly when it crashes on such a stream: when the end of file comes together with bytes, and these end inside
the payload of a frame, right behind the structured data of its message. -/
theorem C40_crashes_exactly (ps : List Bytes) (hps : ∀ p ∈ ps, p.length < 2 ^ 62 ∧ 20 ≤ (rfc5425.encode p).length)
    (reads : List Read) (o : Out (Bool × State)) (hrun : Run .rfc5425 init reads o) (hst : arrived reads <+: stream .rfc5425 ps) :
    o = .panic ↔ (∃ r ∈ reads, r.err = .eof ∧ r.data ≠ []) ∧
      ∃ k p part, ps[k]? = some p ∧ part <+: p ∧ part.length < p.length ∧
        arrived reads = (ps.take k).flatMap rfc5425.encode ++ (natDec p.length ++ b!" " ++ part) ∧
        20 ≤ (natDec p.length ++ b!" " ++ part).length ∧ ∃ fs xs, Frame part fs xs none := by
  rw [C80_crashes_exactly reads o hrun]
  have strip : ∀ (E : Prop) (qs : List Bytes) (x : Bytes), (∀ p ∈ qs, p.length < 2 ^ 62 ∧ 20 ≤ (rfc5425.encode p).length) →
      (CrashesOn E (qs.flatMap rfc5425.encode ++ x) ↔ CrashesOn E x) := by
    intro E qs x hq
    induction qs with
    | nil => exact Iff.rfl
    | cons q qs ih =>
      obtain ⟨g1, g2⟩ := hq q (by simp)
      have hl : (natDec q.length).length ≤ 19 := natDec_length_le_19 (by omega)
      rw [List.flatMap_cons, List.append_assoc]
      have : Ready (rfc5425.encode q ++ (qs.flatMap rfc5425.encode ++ x)) (natDec q.length) q (qs.flatMap rfc5425.encode ++ x) :=
        ⟨rfl, by rw [List.length_append]; omega, space_natDec _, readsInt_natDec _, by omega⟩
      rw [crashesOn_later this]
      exact ih (fun p hp => hq p (by simp [hp]))
  have take_ok : ∀ k, ∀ p ∈ ps.take k, p.length < 2 ^ 62 ∧ 20 ≤ (rfc5425.encode p).length :=
    fun k p hp => hps p (List.mem_of_mem_take hp)
  constructor
  · intro hc
    obtain ⟨k, rest, g1, _, g3, g4⟩ := decodes_prefix ps hps _ hst
    rw [g3, strip _ _ _ (take_ok k)] at hc
    rcases g4 with ⟨rfl, _⟩ | ⟨p, hp, hpre, hlt⟩
    · exact absurd hc (crashesOn_short (by simp))
    · have hin : ∀ {hdr pl : Bytes}, (32 : UInt8) ∉ hdr → rest = hdr ++ b!" " ++ pl → hdr = natDec p.length ∧ pl <+: p := by
        intro hdr pl hs e
        obtain ⟨x, hx⟩ := hpre
        have hx' : hdr ++ b!" " ++ (pl ++ x) = natDec p.length ++ b!" " ++ p := by
          rw [show natDec p.length ++ b!" " ++ p = rfc5425.encode p from rfl, ← hx, e]; simp
        obtain ⟨rfl, e2⟩ := first_space hs (space_natDec _) hx'
        exact ⟨rfl, ⟨x, e2⟩⟩
      obtain ⟨hb1, _⟩ := hps p (List.mem_of_getElem? hp)
      have hl : (natDec p.length).length ≤ 19 := natDec_length_le_19 (by omega)
      cases hc with
      | header hb =>
        obtain ⟨hdr, pl, l, e, _, h2, h3, _, _, h6⟩ := hb
        obtain ⟨rfl, _⟩ := hin h2 e
        have := h3.unique (readsInt_natDec _)
        omega
      | truncated he ht =>
        obtain ⟨hdr, pl, l, e, h1, h2, h3, h4, _, h6⟩ := ht
        obtain ⟨rfl, hpl⟩ := hin h2 e
        have := h3.unique (readsInt_natDec _)
        subst e
        exact ⟨he, k, p, pl, hp, hpl, by omega, g3, h1, h6⟩
      | later hr _ => exact absurd ⟨_, _, _, hr⟩ (part_not_ready hpre hlt)
  · rintro ⟨he, k, p, part, hp, hpre, hlt, e, h20, hf⟩
    rw [e, strip _ _ _ (take_ok k)]
    obtain ⟨hb1, _⟩ := hps p (List.mem_of_getElem? hp)
    have hl : (natDec p.length).length ≤ 19 := natDec_length_le_19 (by omega)
    exact .truncated he ⟨_, _, p.length, rfl, h20, space_natDec _, readsInt_natDec _, by omega, by omega, hf⟩

/-! A stream that an end of file cuts right behind the `-` of its second message: it meets the hypotheses, and the
tokenizer crashes; cut one byte earlier, it has delivered the first message. -/

/-- The payload of the messages. -/
def demoHello : Bytes := b!"<0>1 - host - - - - hello"

example : demoHello.length < 2 ^ 62 ∧ 20 ≤ (rfc5425.encode demoHello).length := by decide +kernel
example : rfc5425.encode demoHello ++ b!"25 <0>1 - host - - - -" <+: stream .rfc5425 [demoHello, demoHello] := by decide +kernel
example : ∃ fs xs, Frame b!"<0>1 - host - - - -" fs xs none :=
  ⟨_, _, .dash (fs := [b!"<0>1", b!"-", b!"host", b!"-", b!"-", b!"-"]) rfl (by decide)⟩
example : (match Tok.step .rfc5425 Tok.init { data := b!"25 <0>1 - host - - - - hello25 <0>1 - host - - - -", err := .eof } with
    | .panic => true | _ => false) = true := by decide +kernel
example : (match Tok.step .rfc5425 Tok.init { data := b!"25 <0>1 - host - - - - hello25 <0>1 - host - - - ", err := .eof } with
    | .ret (b, s) => !b && decide (s.out.length = 1) | _ => false) = true := by decide +kernel

end Syslog5424
