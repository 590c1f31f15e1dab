import Verif.Props.Tokenizer
/-! # Property C66: a message cut by the end of the connection

The connection ends (end of file) inside a frame. The property: the program learns about it, as a message or
as an error. The code drops the unfinished frame silently, with every transport; with the RFC 5425 transport
it can also crash (`C62_remote_crash_violated`). -/
namespace Syslog5424
open Spec Transport Tok

/-- `part` is a beginning of `whole`, and something is missing. -/
def Spec.Unfinished (part whole : Bytes) : Prop := part <+: whole ∧ part ≠ whole

theorem Spec.Unfinished.length_lt {part whole : Bytes} (h : Unfinished part whole) : part.length < whole.length := by
  rcases Nat.lt_or_ge part.length whole.length with h1 | h1
  · exact h1
  · exact absurd (h.1.eq_of_length (by have := h.1.length_le; omega)) h.2

/-- A frame that is not complete does not count. -/
theorem greatest_unfinished {enc : Bytes → Bytes} {ps : List Bytes} {p part : Bytes} {k : Nat}
    (hu : Unfinished part (enc p)) (h : Greatest enc (ps ++ [p]) (ps.flatMap enc ++ part) k) : k = ps.length := by
  obtain ⟨h1, h2, h3⟩ := h
  have hge : ps.length ≤ k := h3 ps.length (by simp) (by
    rw [List.take_left]; exact List.prefix_append _ _)
  rcases Nat.lt_or_ge ps.length k with hlt | _
  · exfalso
    have hk : k = ps.length + 1 := by simp at h1; omega
    rw [hk, show ps.length + 1 = (ps ++ [p]).length by simp, List.take_length, List.flatMap_append] at h2
    have := ((List.prefix_append_right_inj _).mp h2).length_le
    have h4 := hu.length_lt
    simp only [List.flatMap_cons, List.flatMap_nil, List.append_nil] at this
    omega
  · omega

/-- C66 is violated, LF and NUL: the connection ends inside (or right before the terminator of) a message
without structured data. The tokenizer returns; it has delivered the messages before it, and it has neither
delivered nor reported anything else: the only errors reported are those of the reads. (For the NUL transport a
comment in `SuffixStrip`, transport.go:115-117, promises that the terminator is implicit at the end.) -/
theorem C66_terminated_violated (t : Transport) (c : UInt8) (ht : t = .lfEnded ∧ c = 10 ∨ t = .zeroEnded ∧ c = 0)
    (ls : List (List Bytes × Bytes)) (l : List Bytes × Bytes) (hls : ∀ x ∈ ls ++ [l], Line c x.1 x.2)
    (part : Bytes) (hpart : Unfinished part (t.encode (lineText l)))
    (reads : List Read) (o : Out (Bool × State)) (hrun : Run t init reads o)
    (hst : arrived reads = stream t (ls.map lineText) ++ part) (heof : ∃ r ∈ reads, r.err = .eof)
    (hcut : NoCutAfterDash c (ls ++ [l]) reads) :
    ∃ s, o = .ret (false, s) ∧ Each (fun p d => Conveys p d.msg d.err) (ls.map lineText) s.out ∧
      s.errs = (reads.filter fun r => r.err = .other).length := by
  obtain ⟨b, s, k, h1, h2, h3, h4⟩ := C41_reassembly_partial t c ht (ls ++ [l]) hls reads o hrun (by
    rw [hst]
    simp only [stream, List.map_append, List.flatMap_append, List.map_cons, List.map_nil, List.flatMap_cons,
      List.flatMap_nil, List.append_nil]
    exact (List.prefix_append_right_inj _).mpr hpart.1) hcut
  have hb : b = false := by
    cases b with
    | false => rfl
    | true =>
      obtain ⟨r, hr, he⟩ := heof
      exact absurd he (h2.mp rfl r hr)
  subst hb
  rw [hst, List.map_append] at h3
  have hk := greatest_unfinished hpart h3
  rw [hk, List.map_append, List.take_left] at h4
  refine ⟨s, h1, h4, ?_⟩
  have := run_errs hrun _ _ h1
  rw [this]; simp [init]

/-- `Parse` of an unfinished RFC 5425 frame at the end of file. -/
theorem parse_5425_unfinished (p part spare : Bytes) (hp : p.length < 2 ^ 62) (hu : Unfinished part (rfc5425.encode p))
    (hne : part ≠ [])
    (hsafe : ∀ fs xs, ¬ Frame (part.drop ((natDec p.length).length + 1)) fs xs none) :
    ∃ m e, parse (some ⟨part, spare⟩) (some .rfc5425) true = .ret (m, none, e) := by
  have hlt := hu.length_lt
  have hl := natDec_length_le_19 (n := p.length) (by omega)
  have hpos := natDec_length_pos p.length
  by_cases h20 : part.length < 20
  · refine ⟨MsgImm.zero, none, ?_⟩
    have key : rfc5425.prefixStrip (some ⟨part, spare⟩) true = .ret (none, none, none) := by
      unfold prefixStrip
      have h1 : (Slice.mk part spare).len < 20 := h20
      have h0 : (Slice.mk part spare).len ≠ 0 := by simpa using hne
      simp only [h0, h1, if_true, if_false]
    unfold parse
    simp only
    rw [key]
    rfl
  · have hpre : part = natDec p.length ++ SP :: p.take (part.length - (natDec p.length).length - 1) := by
      have e := List.prefix_iff_eq_take.mp hu.1
      have henc : rfc5425.encode p = natDec p.length ++ SP :: p := by simp [encode]
      rw [henc] at e
      conv => lhs; rw [e]
      rw [List.take_append, List.take_of_length_le (by omega)]
      rw [show part.length - (natDec p.length).length = (part.length - (natDec p.length).length - 1) + 1 by omega,
        List.take_succ_cons]
      simp
    have hdrop : part.drop ((natDec p.length).length + 1) = p.take (part.length - (natDec p.length).length - 1) := by
      conv => lhs; rw [hpre]
      rw [show natDec p.length ++ SP :: p.take (part.length - (natDec p.length).length - 1) =
        (natDec p.length ++ [SP]) ++ p.take (part.length - (natDec p.length).length - 1) by simp,
        show (natDec p.length).length + 1 = (natDec p.length ++ [SP]).length by simp, List.drop_left]
    generalize hq : p.take (part.length - (natDec p.length).length - 1) = q at *
    have ht2 : part.take (natDec p.length).length = natDec p.length := by rw [hpre]; simp
    have hi : indexByte SP part = some (natDec p.length).length := by rw [hpre]; exact indexByte_natDec_sp _ _
    have key : rfc5425.prefixStrip (some ⟨part, spare⟩) true = .ret (some ⟨q, spare⟩, none, some .incomplete) := by
      rw [prefixStrip_5425 ⟨part, spare⟩ true (by simp only [Slice.len]; omega) hpos hi
        (by simp only; rw [ht2]; exact atoi_natDec (by omega))]
      have hw : wrap64 (((natDec p.length).length + 1 : Nat) + (p.length : Int))
          = (((natDec p.length).length + 1 + p.length : Nat) : Int) := by
        rw [wrap64_id] <;> omega
      rw [hw, if_pos (by simp only [Slice.len]; simp [encode] at hlt; omega), if_pos rfl]
      rw [Slice.from_nat (by simp only [Slice.len]; omega)]
      simp only [Out.ret_bind, Out.pure_eq, hdrop]
    unfold parse
    simp only
    rw [key]
    simp only [Out.ret_bind]
    rw [if_neg (by simp)]
    simp only [Slice.ofNil_some]
    rcases parseBody_truncated ⟨q, spare⟩ with h | ⟨fs, xs, idx, hL, h⟩ | ⟨_, _, _, _, _, _, h⟩ |
      ⟨fs, xs, y, tx, idx, txt, htx, hL, h⟩
    · exact ⟨_, _, h⟩
    · exact absurd (by rw [hdrop]; exact hL.frame) (hsafe fs xs)
    · exact ⟨_, _, h⟩
    · exact ⟨_, _, h⟩

/-- C66 is violated, RFC 5425: the connection ends inside a frame. The tokenizer has delivered the frames
before it, and it has neither delivered nor reported anything else: the only errors reported are those of the
reads. (The hypothesis `hsafe` excludes the truncated payloads that make the program crash instead.) -/
theorem C66_rfc5425_violated (ps : List Bytes) (p part : Bytes)
    (hps : ∀ q ∈ ps, q.length < 2 ^ 62 ∧ 20 ≤ (rfc5425.encode q).length) (hp : p.length < 2 ^ 62)
    (hpart : Unfinished part (rfc5425.encode p))
    (hsafe : ∀ fs xs, ¬ Frame (part.drop ((natDec p.length).length + 1)) fs xs none)
    (reads : List Read) (o : Out (Bool × State)) (hrun : Run .rfc5425 init reads o)
    (hst : arrived reads = stream .rfc5425 ps ++ part) (heof : ∃ r ∈ reads, r.err = .eof) :
    ∃ s, o = .ret (false, s) ∧ Each (fun p d => Conveys p d.msg d.err) ps s.out ∧
      s.errs = (reads.filter fun r => r.err = .other).length := by
  have hall : ∀ q ∈ ps ++ [p], q.length < 2 ^ 62 := by
    intro q hq
    rw [List.mem_append] at hq
    rcases hq with hq | hq
    · exact (hps q hq).1
    · simp at hq; rw [hq]; exact hp
  have hlt := hpart.length_lt
  obtain ⟨b, s, h1, h2, h3, k, _, h4⟩ := run_flow (enc := rfc5425.encode) (Q := Conveys)
    (ready := fun p b => (rfc5425.encode p).length ≤ b.length ∧ 20 ≤ b.length) hrun (as := ps ++ [p]) (R := []) (k := 0)
    mem_init flow_init (by
      rw [List.nil_append, hst, List.flatMap_append]
      simp only [stream, List.flatMap_cons, List.flatMap_nil, List.append_nil]
      exact (List.prefix_append_right_inj _).mpr hpart.1) (by
      intro pre r post e h0
      by_cases he : r.err = .eof
      · have hpost := run_eof_last hrun pre r post e he
        subst hpost
        refine ⟨fun q b => q = p ∧ b = part, ?_, ?_⟩
        · have hc := cuts_5425 (ps ++ [p]) hall true
          rw [decide_eq_true he]
          refine ⟨hc.take, ?_, hc.len, hc.pos⟩
          rintro q _ b spare hb _ _ ⟨rfl, rfl⟩
          exact parse_5425_unfinished q b spare hp hpart hb hsafe
        · intro k a b ha hb hne hr
          rw [List.nil_append, ← e, hst] at hb
          obtain ⟨hk, ha⟩ := List.getElem?_eq_some_iff.mp ha
          rcases Nat.lt_or_ge k ps.length with hlt' | hge
          · exfalso
            rw [List.getElem_append_left hlt'] at ha
            rw [List.take_append_of_le_length (by omega)] at hb
            have hs : stream .rfc5425 ps = (ps.take k).flatMap rfc5425.encode ++ (ps.drop k).flatMap rfc5425.encode := by
              rw [← List.flatMap_append, List.take_append_drop]; rfl
            rw [hs, List.append_assoc] at hb
            have hb := List.append_cancel_left hb
            rw [List.drop_eq_getElem_cons hlt', ha, List.flatMap_cons] at hb
            have hlen := congrArg List.length hb
            simp only [List.length_append] at hlen
            have := (hps a (by rw [← ha]; exact List.getElem_mem hlt')).2
            exact hr ⟨by omega, by omega⟩
          · have hk' : k = ps.length := by simp at hk; omega
            subst hk'
            rw [List.getElem_append_right (by omega)] at ha
            simp at ha
            rw [List.take_left] at hb
            exact ⟨ha.symm, (List.append_cancel_left hb).symm⟩
      · refine ⟨_, cuts_5425 (ps ++ [p]) hall _, ?_⟩
        intro k a b _ _ _ _ he'
        exact absurd (by simpa using he') he)
  have hb : b = false := by
    cases b with
    | false => rfl
    | true =>
      obtain ⟨r, hr, he⟩ := heof
      exact absurd he (h3.mp rfl r hr)
  subst hb
  rw [List.nil_append, hst] at h4
  have hk : k = ps.length := by
    refine greatest_unfinished (enc := rfc5425.encode) hpart ⟨h4.le, ?_, ?_⟩
    · have hb := h4.bytes
      exact ⟨_, hb.symm⟩
    · intro j hj hpre
      rcases Nat.lt_or_ge k j with hlt' | hge
      · exfalso
        have hpk : ((ps ++ [p]).take (k + 1)).flatMap rfc5425.encode <+: stream .rfc5425 ps ++ part :=
          (flatMap_take_prefix _ _ hlt').trans hpre
        have hk : k < (ps ++ [p]).length := by omega
        have hbytes := h4.bytes
        rw [hbytes, List.take_add_one, List.flatMap_append] at hpk
        have := (List.prefix_append_right_inj _).mp hpk
        rw [List.getElem?_eq_getElem hk] at this
        simp only [Option.toList_some, List.flatMap_cons, List.flatMap_nil, List.append_nil] at this
        have hlen := this.length_le
        rcases h4.wait with h | ⟨a, ha, hr⟩
        · rw [h, List.length_nil] at hlen
          have hpos := natDec_length_pos (ps ++ [p])[k].length
          simp [encode] at hlen
        · rw [List.getElem?_eq_getElem hk, Option.some.injEq] at ha
          subst ha
          rcases Nat.lt_or_ge k ps.length with hlt2 | hge2
          · have := (hps (ps ++ [p])[k] (by rw [List.getElem_append_left hlt2]; exact List.getElem_mem hlt2)).2
            exact hr ⟨hlen, by omega⟩
          · have hk' : k = ps.length := by simp at hk; omega
            subst hk'
            rw [List.take_left] at hbytes
            have : part = s.pending := List.append_cancel_left hbytes
            rw [← this] at hlen
            rw [List.getElem_append_right (by omega)] at hlen
            simp only [Nat.sub_self, List.getElem_cons_zero] at hlen
            omega
      · exact hge
  have h5 := h4.out
  rw [hk, List.take_left] at h5
  refine ⟨s, h1, h5, ?_⟩
  have := run_errs hrun _ _ h1
  rw [this]; simp [init]

/-- C66 (partial): the part that holds for RFC 5425. The connection ends inside a frame, at any byte, and the
end of file comes alone, in a read that returns no byte (as with `net.Conn`). Nothing crashes, whatever the
cut frame contains (no `hsafe`), the tokenizer returns, and the frames before the cut have all been delivered, once, in
order. (Of the cut frame nothing is said to the program: no delivery, no error beside those of the reads. That
is the violation, in this case too.) -/
theorem C66_frames_before_partial (ps : List Bytes) (p part : Bytes)
    (hps : ∀ q ∈ ps ++ [p], q.length < 2 ^ 62 ∧ 20 ≤ (rfc5425.encode q).length)
    (hpart : Unfinished part (rfc5425.encode p))
    (reads : List Read) (o : Out (Bool × State)) (hrun : Run .rfc5425 init reads o)
    (hst : arrived reads = stream .rfc5425 ps ++ part) (heof : ∃ r ∈ reads, r.err = .eof)
    (halone : ∀ r ∈ reads, r.err = .eof → r.data = []) :
    ∃ s, o = .ret (false, s) ∧ Each (fun p d => Conveys p d.msg d.err) ps s.out ∧
      s.errs = (reads.filter fun r => r.err = .other).length := by
  obtain ⟨b, s, k, h1, h2, h3, h4⟩ := C40_reassembly_partial (ps ++ [p]) hps reads o hrun (by
    rw [hst]
    simp only [stream, List.flatMap_append, List.flatMap_cons, List.flatMap_nil, List.append_nil]
    exact (List.prefix_append_right_inj _).mpr hpart.1) (by
    rintro ⟨r, hr, he, hd⟩
    exact absurd (halone r hr he) hd)
  have hb : b = false := by
    cases b with
    | false => rfl
    | true =>
      obtain ⟨r, hr, he⟩ := heof
      exact absurd he (h2.mp rfl r hr)
  subst hb
  rw [hst] at h3
  have hk := greatest_unfinished hpart h3
  rw [hk, List.take_left] at h4
  refine ⟨s, h1, h4, ?_⟩
  have := run_errs hrun _ _ h1
  rw [this]; simp [init]

/-- The hypotheses are met: the frame is cut in the middle of the structured data, where a read with the end of
file makes the tokenizer crash; alone, the end of file does not. -/
example : ∃ o, Run .rfc5425 init [{ data := b!"44 <34>1 - host su - ID47 [a" }, { data := [], err := .eof }] o ∧
    ∃ s, o = .ret (false, s) ∧ s.out = [] ∧ s.errs = 0 := by
  have hf : Read.Fits { data := b!"44 <34>1 - host su - ID47 [a" } init := fits_init (by decide)
  have hps : ∀ q ∈ [] ++ [b!"<34>1 - host su - ID47 [a b=\"c\"] some text x"],
      q.length < 2 ^ 62 ∧ 20 ≤ (rfc5425.encode q).length := by decide +kernel
  have hu : Unfinished (b!"44 <34>1 - host su - ID47 [a")
      (rfc5425.encode (b!"<34>1 - host su - ID47 [a b=\"c\"] some text x")) :=
    ⟨⟨b!" b=\"c\"] some text x", by decide +kernel⟩, by decide +kernel⟩
  obtain ⟨b, s, k, h1, h2, _, _⟩ := C40_reassembly_partial _ hps _ _ (Run.single hf) (by
    simpa [stream, arrived] using hu.1) (by simp)
  have hb : b = true := h2.mpr (by simp)
  subst hb
  have hrun : Run .rfc5425 init [{ data := b!"44 <34>1 - host su - ID47 [a" }, { data := [], err := .eof }]
      (step .rfc5425 s { data := [], err := .eof }) :=
    Run.cons hf h1 (Run.single (by simp [Read.Fits]))
  refine ⟨_, hrun, ?_⟩
  obtain ⟨s', h3, h4, h5⟩ := C66_frames_before_partial [] _ _ hps hu _ _ hrun (by decide +kernel) (by simp) (by simp)
  refine ⟨s', h3, ?_, by simpa using h5⟩
  generalize s'.out = out at h4
  cases h4
  rfl

/-- The hypotheses are met: the only message of the connection lacks its NUL, which is the situation the
comment of `SuffixStrip` describes; it comes in one read, together with the end of file. -/
example : ∃ s, step .zeroEnded init { data := b!"<34>1 - host su - ID47 - a text", err := .eof } = .ret (false, s) ∧
    s.out = [] ∧ s.errs = 0 := by
  have hf : Read.Fits { data := b!"<34>1 - host su - ID47 - a text", err := .eof } init := fits_init (by decide)
  obtain ⟨s, h1, h2, h3⟩ := C66_terminated_violated .zeroEnded 0 (Or.inr ⟨rfl, rfl⟩) []
    ([b!"<34>1", b!"-", b!"host", b!"su", b!"-", b!"ID47"], b!"a text") (by decide +kernel)
    (b!"<34>1 - host su - ID47 - a text") ⟨⟨[0], by decide +kernel⟩, by decide +kernel⟩ _ _ (Run.single hf)
    (by decide +kernel) ⟨_, List.mem_singleton.mpr rfl, rfl⟩ (by
      intro pre r post e k l hk
      match pre, e with
      | [], e =>
        simp only [List.nil_append, List.cons.injEq] at e
        rw [← e.1]
        have hk0 : k = 0 := by
          have := (List.getElem?_eq_some_iff.mp hk).1
          simp at this; omega
        subst hk0
        simp at hk
        rw [← hk]
        decide +kernel
      | _ :: pre, e => simp at e)
  refine ⟨s, h1, ?_, by simpa using h3⟩
  generalize s.out = out at h2
  cases h2
  rfl

/-- The hypotheses are met for RFC 5425: the payload of 40 bytes is cut inside its text. -/
example : ∃ s, step .rfc5425 init { data := b!"40 <34>1 - host su - ID47 - a text", err := .eof } = .ret (false, s) ∧
    s.out = [] ∧ s.errs = 0 := by
  have hf : Read.Fits { data := b!"40 <34>1 - host su - ID47 - a text", err := .eof } init := fits_init (by decide)
  obtain ⟨s, h1, h2, h3⟩ := C66_rfc5425_violated [] (b!"<34>1 - host su - ID47 - a text 12345678")
    (b!"40 <34>1 - host su - ID47 - a text") (by simp) (by decide) ⟨⟨b!" 12345678", by decide +kernel⟩, by decide +kernel⟩ (by
      intro fs xs h
      have e : List.drop ((natDec (b!"<34>1 - host su - ID47 - a text 12345678").length).length + 1)
        (b!"40 <34>1 - host su - ID47 - a text") = b!"<34>1 - host su - ID47 - a text" := by decide +kernel
      rw [e] at h
      obtain ⟨_, _, h3⟩ := frame_of_line (fs := [b!"<34>1", b!"-", b!"host", b!"su", b!"-", b!"ID47"]) (text := b!"a text")
        (more := []) rfl (by decide) (by decide) h
      rcases h3 with ⟨h3, _⟩ | ⟨t', _, _, h3⟩
      · revert h3; decide
      · simp at h3) _ _ (Run.single hf) (by decide +kernel) ⟨_, List.mem_singleton.mpr rfl, rfl⟩
  refine ⟨s, h1, ?_, by simpa using h3⟩
  generalize s.out = out at h2
  cases h2
  rfl

end Syslog5424
