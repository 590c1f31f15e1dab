import Verif.Lemmas.Tokenizer
import Verif.Props.Parse
import Verif.Lemmas.RoundTrip
import Verif.Lemmas.Diagnosis
/-! # Properties C40 to C43, C60, C61, C62: the tokenizer of a connection -/
namespace Syslog5424
open Spec Transport Tok

/-! ## C40 -/

theorem parse_5425_conveys (p suffix spare : Bytes) (atEOF : Bool) (hp : p.length < 2 ^ 62)
    (h20 : 20 ≤ (rfc5425.encode p ++ suffix).length) :
    ∃ m e, parse (some ⟨rfc5425.encode p ++ suffix, spare⟩) (some .rfc5425) atEOF = .ret (m, some ⟨suffix, spare⟩, e) ∧
      Conveys p m e := by
  by_cases hf : ∃ fs xs o, Frame p fs xs o
  · obtain ⟨fs, xs, o, hf⟩ := hf
    obtain ⟨idx, txt, hL⟩ := hf.layout
    refine ⟨_, _, parse_5425_frame p suffix spare atEOF (by omega) h20 hL, ?_, ?_, fun h => absurd ⟨_, _, _, hf⟩ h,
      fun h => absurd h (frame_not_wrong hf)⟩
    rotate_left
    · intro fs' xs' o' els hf' hx reg g hg
      obtain ⟨idx', txt', hL'⟩ := hf'.layout
      have e1 := parse_5425_frame p suffix spare atEOF (by omega) h20 hL
      rw [parse_5425_frame p suffix spare atEOF (by omega) h20 hL'] at e1
      simp only [Out.ret.injEq, Prod.mk.injEq, MsgImm.mk.injEq] at e1
      obtain ⟨⟨_, rfl, rfl⟩, _⟩ := e1
      exact (Layout.view (data := ⟨p, suffix ++ spare⟩) hL').elements hx reg g hg
    intro pri ts host app pid mid xs' o' hf'
    obtain ⟨idx', txt', hL'⟩ := hf'.layout
    have e1 := parse_5425_frame p suffix spare atEOF (by omega) h20 hL
    rw [parse_5425_frame p suffix spare atEOF (by omega) h20 hL'] at e1
    simp only [Out.ret.injEq, Prod.mk.injEq, MsgImm.mk.injEq] at e1
    obtain ⟨⟨_, rfl, rfl⟩, _⟩ := e1
    obtain ⟨a, b, c, d, e, f, h1, h2⟩ := (Layout.view (data := ⟨p, suffix ++ spare⟩) hL').readsAs
    simp only [List.cons.injEq, and_true] at h1
    obtain ⟨rfl, rfl, rfl, rfl, rfl, rfl⟩ := h1
    exact ⟨rfl, rfl, h2⟩
  · have e : rfc5425.encode p ++ suffix = natDec p.length ++ SP :: (p ++ suffix) := by simp [encode]
    rw [e] at h20 ⊢
    unfold parse
    simp only
    rw [prefixStrip_5425_frame p suffix spare atEOF (by omega) h20]
    simp only [Out.ret_bind]
    rw [if_neg (by simp)]
    rcases parseBody_rest ⟨p, suffix ++ spare⟩ ⟨suffix, spare⟩ atEOF with ⟨e, h⟩ | ⟨fs, xs, o, idx, txt, h, _⟩
    · refine ⟨_, _, h, fun h => absurd ⟨_, _, _, h⟩ hf, fun h => absurd ⟨_, _, _, h⟩ hf, fun _ => ⟨by simp, rfl⟩, ?_⟩
      intro e' hw
      rw [parseBody_of_wrong (some .rfc5425) atEOF _ none ⟨p, suffix ++ spare⟩ hw] at h
      simp only [dispatchError, Out.ret.injEq, Prod.mk.injEq] at h
      exact h.2.2.symm
    · exact absurd ⟨_, _, _, h.frame⟩ hf

/-- How `Parse` cuts an RFC 5425 stream: a frame is taken when it is complete and 20 bytes are there. At end
of file this is only true for a buffer of less than 20 bytes. -/
theorem cuts_5425 (ps : List Bytes) (hps : ∀ p ∈ ps, p.length < 2 ^ 62) (eof : Bool) :
    Cuts .rfc5425 rfc5425.encode (fun p b => (rfc5425.encode p).length ≤ b.length ∧ 20 ≤ b.length)
      (fun _ b => eof = true → b.length < 20) Conveys eof ps := by
  refine ⟨?_, ?_, fun _ _ _ h => h.1, ?_⟩
  · intro p hp suffix spare hr
    exact parse_5425_conveys p suffix spare eof (hps p hp) hr.2
  · intro p hp b spare hb hcmp hr hsafe
    have hl := hps p hp
    refine ⟨MsgImm.zero, none, ?_⟩
    have key : rfc5425.prefixStrip (some ⟨b, spare⟩) eof = .ret (none, none, none) := by
      by_cases h20 : b.length < 20
      · unfold prefixStrip
        have : (Slice.mk b spare).len < 20 := h20
        by_cases h0 : (Slice.mk b spare).len = 0
        · simp only [h0, if_true]
        · simp only [h0, this, if_true, if_false]
      · have heof : eof = false := by
          cases eof with
          | false => rfl
          | true => exact absurd (hsafe rfl) h20
        subst heof
        have hlt : b.length < (rfc5425.encode p).length := by
          rcases Nat.lt_or_ge b.length (rfc5425.encode p).length with h | h
          · exact h
          · exact absurd ⟨h, by omega⟩ hr
        have hpre : b = (rfc5425.encode p).take b.length := by
          rcases hcmp with h | h
          · exact List.prefix_iff_eq_take.mp h
          · have := h.length_le; omega
        rw [hpre]
        exact C17_incomplete_waits p spare b.length (by omega) hlt
    unfold parse
    simp only
    rw [key]
    rfl
  · intro p _ e
    have : rfc5425.encode p = natDec p.length ++ [SP] ++ p := rfl
    rw [this] at e
    simp at e

/-- The RFC 5425 stream of some payloads, wherever it is cut. -/
theorem flow_5425 (ps : List Bytes) (hps : ∀ p ∈ ps, p.length < 2 ^ 62) (reads : List Read) (o : Out (Bool × State))
    (hrun : Run .rfc5425 init reads o) (hst : arrived reads <+: stream .rfc5425 ps)
    (heof : (∃ r ∈ reads, r.err = .eof ∧ r.data ≠ []) → arrived reads = stream .rfc5425 ps) :
    ∃ b s, o = .ret (b, s) ∧ Mem s ∧ (b = true ↔ ∀ r ∈ reads, r.err ≠ .eof) ∧
      ∃ k, Flow rfc5425.encode (fun p b => (rfc5425.encode p).length ≤ b.length ∧ 20 ≤ b.length) Conveys ps s
        (arrived reads) k := by
  obtain ⟨b, s, h1, h2, h3, k, _, h4⟩ := run_flow (enc := rfc5425.encode) (Q := Conveys)
    (ready := fun p b => (rfc5425.encode p).length ≤ b.length ∧ 20 ≤ b.length) hrun (as := ps) (R := []) (k := 0)
    mem_init flow_init (by simpa [stream] using hst) (by
      intro pre r post e h0
      refine ⟨_, cuts_5425 ps hps _, ?_⟩
      intro k a b ha hb hne hr he
      simp only [decide_eq_true_eq] at he
      have hpost := run_eof_last hrun pre r post e he
      subst hpost
      have hall := heof ⟨r, by rw [e]; simp, he, h0⟩
      rw [← e, List.nil_append, hall] at hb
      have hst : stream .rfc5425 ps = (ps.take k).flatMap rfc5425.encode ++ (ps.drop k).flatMap rfc5425.encode := by
        rw [← List.flatMap_append, List.take_append_drop]; rfl
      rw [hst] at hb
      have hb := List.append_cancel_left hb
      have hdk : ps.drop k = a :: ps.drop (k + 1) := by
        obtain ⟨hlt, ha⟩ := List.getElem?_eq_some_iff.mp ha
        rw [← ha, List.drop_eq_getElem_cons hlt]
      rw [hdk, List.flatMap_cons] at hb
      have hlen := congrArg List.length hb
      simp only [List.length_append] at hlen
      rcases Nat.lt_or_ge b.length 20 with h | h
      · exact h
      · exact absurd ⟨by omega, h⟩ hr)
  exact ⟨b, s, h1, h2, h3, k, by simpa using h4⟩

/-- The `k`-th frame, if there is one, is not complete in `R`. -/
def Spec.Greatest (enc : Bytes → Bytes) (ps : List Bytes) (R : Bytes) (k : Nat) : Prop :=
  k ≤ ps.length ∧ (ps.take k).flatMap enc <+: R ∧ ∀ j ≤ ps.length, (ps.take j).flatMap enc <+: R → j ≤ k

theorem flatMap_take_prefix {α : Type} (enc : α → Bytes) (as : List α) {i j : Nat} (h : i ≤ j) :
    (as.take i).flatMap enc <+: (as.take j).flatMap enc := by
  obtain ⟨d, rfl⟩ : ∃ d, j = i + d := ⟨j - i, by omega⟩
  rw [List.take_add, List.flatMap_append]
  exact List.prefix_append _ _

/-- C40 (partial): payloads framed with RFC 5425, each frame having at least 20 bytes, however the stream is
cut into reads, and whether the end of file comes with the last bytes or alone: the tokenizer does not crash,
and at every point it has delivered exactly the frames that are completely arrived (`k` is the greatest
number of frames contained in the bytes received), in order, each exactly once; each of them is the message
with its fields and no error, or an error when the payload is not a message. It returns at the end of file.
Missing: frames of less than 20 bytes, see `C40_short_frames_partial` and `C40_short_frame_violated`. -/
theorem C40_reassembly_partial (ps : List Bytes) (hps : ∀ p ∈ ps, p.length < 2 ^ 62 ∧ 20 ≤ (rfc5425.encode p).length)
    (reads : List Read) (o : Out (Bool × State)) (hrun : Run .rfc5425 init reads o)
    (hst : arrived reads <+: stream .rfc5425 ps)
    (heof : (∃ r ∈ reads, r.err = .eof ∧ r.data ≠ []) → arrived reads = stream .rfc5425 ps) :
    ∃ b s k, o = .ret (b, s) ∧ (b = true ↔ ∀ r ∈ reads, r.err ≠ .eof) ∧
      Greatest rfc5425.encode ps (arrived reads) k ∧
      Each (fun p d => Conveys p d.msg d.err) (ps.take k) s.out := by
  obtain ⟨b, s, h1, h2, h3, k, h4⟩ := flow_5425 ps (fun p hp => (hps p hp).1) reads o hrun hst heof
  refine ⟨b, s, k, h1, h3, ⟨h4.le, ?_, ?_⟩, h4.out⟩
  · conv => rhs; rw [h4.bytes]
    exact List.prefix_append _ _
  · intro j hj hpre
    rcases Nat.lt_or_ge k j with hlt | hge
    · exfalso
      have hpk : (ps.take (k + 1)).flatMap rfc5425.encode <+: arrived reads := by
        exact (flatMap_take_prefix _ _ hlt).trans hpre
      have hk : k < ps.length := by omega
      rw [h4.bytes, List.take_add_one, List.flatMap_append] at hpk
      have := (List.prefix_append_right_inj _).mp hpk
      rw [List.getElem?_eq_getElem hk] at this
      simp only [Option.toList_some, List.flatMap_cons, List.flatMap_nil, List.append_nil] at this
      have hlen := this.length_le
      have h20 := (hps ps[k] (List.getElem_mem hk)).2
      rcases h4.wait with h | ⟨a, ha, hr⟩
      · rw [h, List.length_nil] at hlen; omega
      · rw [List.getElem?_eq_getElem hk, Option.some.injEq] at ha
        subst ha
        exact hr ⟨hlen, by omega⟩
    · exact hge

/-- C40: in particular when the whole stream is arrived, everything is delivered. -/
theorem C40_all_delivered_partial (ps : List Bytes) (hps : ∀ p ∈ ps, p.length < 2 ^ 62 ∧ 20 ≤ (rfc5425.encode p).length)
    (reads : List Read) (o : Out (Bool × State)) (hrun : Run .rfc5425 init reads o)
    (hst : arrived reads = stream .rfc5425 ps) :
    ∃ b s, o = .ret (b, s) ∧ (b = true ↔ ∀ r ∈ reads, r.err ≠ .eof) ∧
      Each (fun p d => Conveys p d.msg d.err) ps s.out := by
  obtain ⟨b, s, k, h1, h2, h3, h4⟩ := C40_reassembly_partial ps hps reads o hrun (by rw [hst]; exact List.prefix_refl _)
    (fun _ => hst)
  have hk : k = ps.length := by
    have := h3.2.2 ps.length (Nat.le_refl _) (by rw [hst, List.take_length]; exact List.prefix_refl _)
    have := h3.1
    omega
  rw [hk, List.take_length] at h4
  exact ⟨b, s, h1, h2, h4⟩

/-- C40 (partial): for frames of any length: the frames delivered are the first ones of the stream, in order,
each once, as they should be; what is received and not delivered is not a complete frame, or has less than 20
bytes. -/
theorem C40_short_frames_partial (ps : List Bytes) (hps : ∀ p ∈ ps, p.length < 2 ^ 62)
    (reads : List Read) (o : Out (Bool × State)) (hrun : Run .rfc5425 init reads o)
    (hst : arrived reads <+: stream .rfc5425 ps)
    (heof : (∃ r ∈ reads, r.err = .eof ∧ r.data ≠ []) → arrived reads = stream .rfc5425 ps) :
    ∃ b s k pend, o = .ret (b, s) ∧ k ≤ ps.length ∧ Each (fun p d => Conveys p d.msg d.err) (ps.take k) s.out ∧
      arrived reads = stream .rfc5425 (ps.take k) ++ pend ∧
      (pend = [] ∨ ∃ p, ps[k]? = some p ∧ (pend.length < (rfc5425.encode p).length ∨ pend.length < 20)) := by
  obtain ⟨b, s, h1, h2, h3, k, h4⟩ := flow_5425 ps hps reads o hrun hst heof
  refine ⟨b, s, k, s.pending, h1, h4.le, h4.out, h4.bytes, ?_⟩
  rcases h4.wait with h | ⟨a, ha, hr⟩
  · exact Or.inl h
  · refine Or.inr ⟨a, ha, ?_⟩
    rcases Nat.lt_or_ge s.pending.length (rfc5425.encode a).length with h | h
    · exact Or.inl h
    · rcases Nat.lt_or_ge s.pending.length 20 with h' | h'
      · exact Or.inr h'
      · exact absurd ⟨h, h'⟩ hr

/-- When `Parse` never takes anything from what is arrived, nothing is delivered. -/
theorem never_delivers {t : Transport} (x : Bytes) (hx : x ≠ []) (reads : List Read) (o : Out (Bool × State))
    (hrun : Run t init reads o) (hrec : arrived reads <+: x)
    (hp : ∀ pre r post, reads = pre ++ r :: post → r.data ≠ [] → ∀ spare, ∃ m e,
      parse (some ⟨arrived (pre ++ [r]), spare⟩) (some t) (decide (r.err = .eof)) = .ret (m, none, e)) :
    ∃ b s, o = .ret (b, s) ∧ (b = true ↔ ∀ r ∈ reads, r.err ≠ .eof) ∧ s.out = [] := by
  obtain ⟨b, s, h1, h2, h3, k, _, h4⟩ := run_flow (enc := fun _ : Unit => x) (Q := fun _ _ _ => False)
    (ready := fun _ _ => False) hrun (as := [()]) (R := []) (k := 0)
    mem_init flow_init (by simpa using hrec) (by
      intro pre r post e h0
      refine ⟨fun _ b => b = arrived (pre ++ [r]), ⟨?_, ?_, ?_, ?_⟩, ?_⟩
      · intro _ _ _ _ h; exact h.elim
      · rintro _ _ b spare _ _ _ rfl
        exact hp pre r post e h0 spare
      · intro _ _ _ h; exact h.elim
      · intro _ _; exact hx
      · intro k a b ha hb _ _
        have : k = 0 := by
          have := (List.getElem?_eq_some_iff.mp ha).1
          simp at this; omega
        subst this
        simpa using hb.symm)
  refine ⟨b, s, h1, h3, ?_⟩
  have := h4.out
  cases hk : (List.take k [()]) with
  | nil => rw [hk] at this; generalize s.out = out at this; cases this; rfl
  | cons a l => rw [hk] at this; generalize s.out = out at this; cases this; rename_i h _; exact h.elim

/-- C40 is violated: a complete frame of less than 20 bytes at the end of the stream is never delivered, not
even at the end of file. -/
theorem C40_short_frame_violated (p : Bytes) (h : (rfc5425.encode p).length < 20) (reads : List Read)
    (o : Out (Bool × State)) (hrun : Run .rfc5425 init reads o) (hst : arrived reads = rfc5425.encode p) :
    ∃ b s, o = .ret (b, s) ∧ (b = true ↔ ∀ r ∈ reads, r.err ≠ .eof) ∧ s.out = [] := by
  refine never_delivers (rfc5425.encode p) (by simp [encode]) reads o hrun (by rw [hst]; exact List.prefix_refl _) ?_
  intro pre r post e h0 spare
  have hlen : (arrived (pre ++ [r])).length < 20 := by
    have : (arrived (pre ++ [r])).length ≤ (arrived reads).length := by
      rw [e]; simp [arrived]
    rw [hst] at this; omega
  refine ⟨MsgImm.zero, none, ?_⟩
  have hlt : (Slice.mk (arrived (pre ++ [r])) spare).len < 20 := hlen
  have key : rfc5425.prefixStrip (some ⟨arrived (pre ++ [r]), spare⟩) (decide (r.err = .eof)) = .ret (none, none, none) := by
    unfold prefixStrip
    by_cases h0 : (Slice.mk (arrived (pre ++ [r])) spare).len = 0
    · simp only [h0, if_true]
    · simp only [h0, hlt, if_true, if_false]
  unfold parse
  simp only
  rw [key]
  rfl

/-! ## C41 -/

theorem notin_headerText {c : UInt8} {fs : List Bytes} (h : ∀ f ∈ fs, RawField f ∧ c ∉ f) (hc : c ≠ SP) : c ∉ headerText fs := by
  unfold headerText
  rw [List.mem_flatMap]
  rintro ⟨f, hf, hm⟩
  rw [List.mem_append] at hm
  rcases hm with hm | hm
  · exact (h f hf).2 hm
  · simp at hm; exact hc hm

/-- After the header of such a message, the first space is the second byte: the only frames that begin the
same way are the message cut at some place of its text, and the message cut right after the `-`. -/
theorem frame_of_line {fs : List Bytes} {text more b : Bytes} (h6 : fs.length = 6) (hraw : ∀ f ∈ fs, RawField f)
    (hb : b ++ more = headerText fs ++ b!"- " ++ text) {fs' xs : List Bytes} {o : Option Bytes} (h : Frame b fs' xs o) :
    fs' = fs ∧ xs = [] ∧ (b = headerText fs ++ b!"-" ∧ o = none ∨
      ∃ t', b = headerText fs ++ b!"- " ++ t' ∧ text = t' ++ more ∧ o = some (b!" " ++ t')) := by
  cases h with
  | dash h6' hr' =>
    rw [List.append_assoc, List.append_assoc] at hb
    obtain ⟨rfl, _⟩ := headerText_inj (by omega) hr' hraw hb
    exact ⟨rfl, rfl, Or.inl ⟨rfl, rfl⟩⟩
  | @dashText _ t' h6' hr' =>
    simp only [List.append_assoc] at hb
    obtain ⟨rfl, h2⟩ := headerText_inj (by omega) hr' hraw hb
    refine ⟨rfl, rfl, Or.inr ⟨t', rfl, ?_, rfl⟩⟩
    have := List.append_cancel_left h2
    exact this.symm
  | @sd _ _ _ tail h6' hr' hi hsp =>
    exfalso
    obtain ⟨p, q, rfl, hnp, hlen⟩ := hsp
    simp only [List.append_assoc] at hb
    obtain ⟨rfl, h2⟩ := headerText_inj (by omega) hr' hraw hb
    match p, hnp, hlen with
    | x :: y :: r, hnp, _ =>
      simp at h2 hnp
      exact hnp.2.1 h2.2.1.symm
    | [x], _, hlen => simp at hlen
    | [], _, hlen => simp at hlen

theorem line_conveys {t : Transport} {c : UInt8} (ht : t.term = some c) {l : List Bytes × Bytes} (hl : Line c l.1 l.2)
    (suffix spare : Bytes) (eof : Bool) :
    ∃ m e, parse (some ⟨lineText l ++ [c] ++ suffix, spare⟩) (some t) eof = .ret (m, some ⟨suffix, spare⟩, e) ∧
      Conveys (lineText l) m e := by
  obtain ⟨fs, text⟩ := l
  obtain ⟨idx, txt, hL⟩ : ∃ idx txt, Layout (lineText (fs, text) ++ [c] ++ suffix) fs [] (some (SP :: (text ++ c :: suffix)))
      idx txt := by
    have := Layout.dashText (t := text ++ c :: suffix) hl.six (fun f hf => (hl.raw f hf).1)
    have e : headerText fs ++ [DASH, SP] ++ (text ++ c :: suffix) = lineText (fs, text) ++ [c] ++ suffix := by
      simp [lineText]
    rw [← e]
    exact ⟨_, _, this⟩
  obtain ⟨pre, h1, h2, h3⟩ := parse_term_frame ht ⟨lineText (fs, text) ++ [c] ++ suffix, spare⟩ eof hL hl.text
  have hpre : pre ++ SP :: text = lineText (fs, text) := by
    simp only at h1
    have h1' : (lineText (fs, text)) ++ (c :: suffix) = (pre ++ SP :: text) ++ (c :: suffix) := by
      simpa using h1
    exact (List.append_cancel_right h1').symm
  refine ⟨_, _, h3, ?_, ?_, ?_, ?_⟩
  · intro pri ts host app pid mid xs o hf
    obtain ⟨e1, e2, e3⟩ := frame_of_line (text := text) (more := []) hl.six (fun f hf => (hl.raw f hf).1)
      (by rw [List.append_nil]; rfl) hf
    refine ⟨rfl, hpre, ?_⟩
    obtain ⟨a, b, c', d, e, f, g1, g2⟩ := h2.readsAs
    simp only at e1
    rw [← e1] at g1
    simp only [List.cons.injEq, and_true] at g1
    obtain ⟨rfl, rfl, rfl, rfl, rfl, rfl⟩ := g1
    have ho : (o.getD []).drop 1 = ((some (SP :: text)).getD []).drop 1 := by
      rcases e3 with ⟨h, _⟩ | ⟨t', _, h, rfl⟩
      · simp [lineText] at h
      · simp at h; rw [h]; rfl
    rw [ho]
    exact g2
  · intro fs' xs o els hf hx reg g hg
    obtain ⟨e1, e2, e3⟩ := frame_of_line (text := text) (more := []) hl.six (fun f hf => (hl.raw f hf).1)
      (by rw [List.append_nil]; rfl) hf
    exact h2.elements (by rw [← hx, e2]) reg g hg
  · intro h
    exact absurd ⟨fs, [], _, Frame.dashText hl.six (fun f hf => (hl.raw f hf).1)⟩ h
  · intro e hw
    exact absurd hw (frame_not_wrong (Frame.dashText hl.six (fun f hf => (hl.raw f hf).1)))

theorem cuts_line {t : Transport} {c : UInt8} (ht : t.term = some c) (ls : List (List Bytes × Bytes))
    (hls : ∀ l ∈ ls, Line c l.1 l.2) (eof : Bool) :
    Cuts t (fun l => lineText l ++ [c]) (fun l b => (lineText l ++ [c]).length ≤ b.length)
      (fun l b => b ≠ headerText l.1 ++ b!"-") (fun l m e => Conveys (lineText l) m e) eof ls := by
  refine ⟨?_, ?_, fun _ _ _ h => h, fun _ _ => by simp⟩
  · intro l hl suffix spare _
    exact line_conveys ht (hls l hl) suffix spare eof
  · intro l hl b spare hb hcmp hr hsafe
    have hg := hls l hl
    have hcs : c ≠ SP := by rcases t <;> simp [term] at ht <;> rw [← ht] <;> decide
    obtain ⟨x, hx⟩ : b <+: lineText l ++ [c] := by
      rcases hcmp with h | h
      · exact h
      · exact absurd h.length_le hr
    -- `b` does not contain the terminator
    have hxne : x ≠ [] := by
      rintro rfl
      rw [List.append_nil] at hx
      rw [hx] at hr
      exact hr (Nat.le_refl _)
    obtain ⟨x', rfl⟩ : ∃ x', x = x' ++ [c] := by
      have h1 := congrArg List.getLast? hx
      obtain ⟨z, hz⟩ : ∃ z, x.getLast? = some z := ⟨x.getLast hxne, List.getLast?_eq_some_getLast hxne⟩
      simp only [List.getLast?_append, List.getLast?_singleton, hz, Option.some_or, Option.some.injEq] at h1
      subst h1
      obtain ⟨ys, hys⟩ := List.getLast?_eq_some_iff.mp hz
      exact ⟨ys, hys⟩
    rw [← List.append_assoc] at hx
    have hx := List.append_cancel_right hx
    have hcb : c ∉ b := by
      intro h
      have : c ∈ lineText l := by rw [← hx]; simp [h]
      simp only [lineText, List.mem_append] at this
      rcases this with (h | h) | h
      · exact notin_headerText hg.raw hcs h
      · rcases t <;> simp [term] at ht <;> rw [← ht] at h <;> revert h <;> decide
      · exact hg.text h
    rcases parse_term_cases ht ⟨b, spare⟩ eof with ⟨_, h⟩ | ⟨_, h⟩ | ⟨fs, xs, idx, hL, h⟩ | ⟨_, _, _, _, _, _, _, h⟩ |
      ⟨_, _, _, _, _, _, _, _, _, _, h⟩ | ⟨fs, xs, idx, pre, y, p, q, hL, _, hbuf, _, h⟩
    · exact ⟨_, _, h⟩
    · exact ⟨_, _, h⟩
    · exfalso
      obtain ⟨_, _, h3⟩ := frame_of_line hg.six (fun f hf => (hg.raw f hf).1) hx hL.frame
      rcases h3 with ⟨h3, _⟩ | ⟨t', _, _, h3⟩
      · exact hsafe h3
      · simp at h3
    · exact ⟨_, _, h⟩
    · exact ⟨_, _, h⟩
    · exfalso
      simp only at hbuf
      exact hcb (by rw [hbuf]; simp)

/-- No read ends right after the `-` that stands for the structured data. -/
def Spec.NoCutAfterDash (c : UInt8) (ls : List (List Bytes × Bytes)) (reads : List Read) : Prop :=
  ∀ pre r post, reads = pre ++ r :: post → ∀ k l, ls[k]? = some l →
    arrived (pre ++ [r]) ≠ (ls.take k).flatMap (fun l => lineText l ++ [c]) ++ (headerText l.1 ++ b!"-")

/-- C41 (partial): messages without structured data (six fields, `-`, a space, the text), framed with the LF or
the NUL transport, however the stream is cut into reads, provided no read ends right after the `-`; the end of
file may come anywhere. The tokenizer does not crash, and at every point it has delivered exactly the messages
whose terminator was arrived, in order, each once, with their fields and text and no error.
Missing: reads ending right after the `-` (`C41_cut_after_dash_violated`), messages without text
(`C41_no_text_violated`), messages with structured data (`C41_structured_data_violated`). -/
theorem C41_reassembly_partial (t : Transport) (c : UInt8) (ht : t = .lfEnded ∧ c = 10 ∨ t = .zeroEnded ∧ c = 0)
    (ls : List (List Bytes × Bytes)) (hls : ∀ l ∈ ls, Line c l.1 l.2)
    (reads : List Read) (o : Out (Bool × State)) (hrun : Run t init reads o)
    (hst : arrived reads <+: stream t (ls.map lineText)) (hcut : NoCutAfterDash c ls reads) :
    ∃ b s k, o = .ret (b, s) ∧ (b = true ↔ ∀ r ∈ reads, r.err ≠ .eof) ∧
      Greatest t.encode (ls.map lineText) (arrived reads) k ∧
      Each (fun p d => Conveys p d.msg d.err) ((ls.map lineText).take k) s.out := by
  have hterm : t.term = some c := by rcases ht with ⟨rfl, rfl⟩ | ⟨rfl, rfl⟩ <;> rfl
  have henc : ∀ d, t.encode d = d ++ [c] := by intro d; rcases ht with ⟨rfl, rfl⟩ | ⟨rfl, rfl⟩ <;> rfl
  have hmap : ∀ l : List (List Bytes × Bytes), (l.map lineText).flatMap t.encode = l.flatMap (fun l => lineText l ++ [c]) := by
    intro l; rw [List.flatMap_map]; congr 1; funext x; exact henc _
  obtain ⟨b, s, h1, h2, h3, k, _, h4⟩ := run_flow (enc := fun l => lineText l ++ [c])
    (Q := fun l m e => Conveys (lineText l) m e)
    (ready := fun l b => (lineText l ++ [c]).length ≤ b.length) hrun (as := ls) (R := []) (k := 0)
    mem_init flow_init (by rw [List.nil_append, ← hmap]; exact hst) (by
      intro pre r post e h0
      refine ⟨_, cuts_line hterm ls hls _, ?_⟩
      rintro k l b hk hb _ _ rfl
      exact hcut pre r post e k l hk (by rw [List.nil_append] at hb; exact hb))
  rw [List.nil_append] at h4
  refine ⟨b, s, k, h1, h3, ⟨by simpa using h4.le, ?_, ?_⟩, ?_⟩
  · rw [← List.map_take, hmap]
    conv => rhs; rw [h4.bytes]
    exact List.prefix_append _ _
  · intro j hj hpre
    rw [List.length_map] at hj
    rw [← List.map_take, hmap] at hpre
    rcases Nat.lt_or_ge k j with hlt | hge
    · exfalso
      have hpk := (flatMap_take_prefix (fun l => lineText l ++ [c]) ls (i := k + 1) (j := j) hlt).trans hpre
      have hk : k < ls.length := by omega
      rw [h4.bytes, List.take_add_one, List.flatMap_append] at hpk
      have := (List.prefix_append_right_inj _).mp hpk
      rw [List.getElem?_eq_getElem hk] at this
      simp only [Option.toList_some, List.flatMap_cons, List.flatMap_nil, List.append_nil] at this
      have hlen := this.length_le
      rcases h4.wait with h | ⟨a, ha, hr⟩
      · rw [h, List.length_append] at hlen; simp at hlen
      · rw [List.getElem?_eq_getElem hk, Option.some.injEq] at ha
        subst ha
        exact hr hlen
    · exact hge
  · rw [← List.map_take]
    have := h4.out
    generalize s.out = out at this
    generalize ls.take k = lk at this
    clear h4 h2 h1
    induction this with
    | nil => exact .nil
    | cons h _ ih => exact .cons h ih

/-- Messages and reads that meet the hypotheses of C41. -/
def Spec.sampleLines : List (List Bytes × Bytes) :=
  [([b!"<34>1", b!"-", b!"host", b!"su", b!"-", b!"ID47"], b!"a ] text"), ([b!"<35>1", b!"-", b!"host", b!"su", b!"-", b!"-"], b!"x")]

instance (c : UInt8) (fs : List Bytes) (text : Bytes) : Decidable (Line c fs text) :=
  decidable_of_iff (fs.length = 6 ∧ (∀ f ∈ fs, RawField f ∧ c ∉ f) ∧ c ∉ text)
    ⟨fun ⟨a, b, c⟩ => ⟨a, b, c⟩, fun ⟨a, b, c⟩ => ⟨a, b, c⟩⟩

example : ∀ l ∈ sampleLines, Line 10 l.1 l.2 := by decide +kernel
example : stream .lfEnded (sampleLines.map lineText) = b!"<34>1 - host su - ID47 - a ] text\n<35>1 - host su - - - x\n" := by
  decide +kernel
/-- the first read ends inside the text of the first message, the second one is the rest -/
example : NoCutAfterDash 10 sampleLines [{ data := b!"<34>1 - host su - ID47 - a" },
    { data := b!" ] text\n<35>1 - host su - - - x\n", err := .eof }] := by
  intro pre r post e k l hk
  have hk2 : k = 0 ∨ k = 1 := by
    have := (List.getElem?_eq_some_iff.mp hk).1
    simp [sampleLines] at this; omega
  match pre, e with
  | [], e =>
    simp only [List.nil_append, List.cons.injEq] at e
    rw [← e.1]
    rcases hk2 with rfl | rfl <;> simp [sampleLines] at hk <;> rw [← hk] <;> decide +kernel
  | [_], e =>
    simp only [List.cons_append, List.nil_append, List.cons.injEq] at e
    rw [← e.1, ← e.2.1]
    rcases hk2 with rfl | rfl <;> simp [sampleLines] at hk <;> rw [← hk] <;> decide +kernel
  | _ :: _ :: pre, e => simp at e

/-! ### single reads -/

theorem _root_.Syslog5424.Tok.Run.single {t : Transport} {s : State} {r : Read} (hf : r.Fits s) : Run t s [r] (step t s r) := by
  by_cases h : ∃ s', step t s r = .ret (true, s')
  · obtain ⟨s', h⟩ := h
    rw [h]
    exact .cons hf h .nil
  · exact .last hf rfl (fun s' e => h ⟨s', e⟩)

theorem _root_.Syslog5424.Tok.Run.append {t : Transport} {s : State} {rs rs' : List Read} {o1 o : Out (Bool × State)}
    (h : Run t s rs o1) : ∀ s1, o1 = .ret (true, s1) → Run t s1 rs' o → Run t s (rs ++ rs') o := by
  induction h with
  | nil => intro s1 e h'; simp at e; subst e; exact h'
  | cons hf hs _ ih => intro s1 e h'; exact .cons hf hs (ih s1 e h')
  | last hf hs hn => intro s1 e; exact absurd e (hn s1)

/-- What a read that returned something does, in terms of the bytes pending. -/
theorem step_eq {t : Transport} {s : State} {r : Read} (hm : Mem s) (hf : r.Fits s) (h0 : r.data ≠ []) :
    ∃ arr spare : Bytes, ∃ errs : Nat, arr.length = readBuffer ∧
      (s.pending ++ r.data).length + spare.length ≤ readBuffer ∧ step t s r = (do
      let (data, ds) ← parseLoop t (decide (r.err = .eof)) ((s.pending ++ r.data).length + 1) ⟨s.pending ++ r.data, spare⟩ []
      return (!decide (r.err = .eof), advance { s with arr := arr, errs := errs } (r.data.length + s.done) data.len
        (s.out ++ ds.map fun d => ⟨s.old.length, d.1, d.2⟩))) := by
  have hsz := hm.size
  have hft := hm.fit
  have hpl := hm.pending_length
  simp only [Read.Fits, State.room] at hf
  have hb : s.off + s.done + (r.data ++ r.scratch).length ≤ s.arr.length := by simp only [List.length_append]; omega
  have htake := overwrite_take hb
  have hdropw := overwrite_drop hb
  have hbuf : (overwrite s.arr (s.off + s.done) (r.data ++ r.scratch)).drop s.off =
      s.pending ++ r.data ++ (r.scratch ++ s.arr.drop (s.off + s.done + (r.data ++ r.scratch).length)) := by
    have e1 : (overwrite s.arr (s.off + s.done) (r.data ++ r.scratch)) =
        s.arr.take (s.off + s.done) ++ (r.data ++ r.scratch ++ s.arr.drop (s.off + s.done + (r.data ++ r.scratch).length)) := by
      rw [← hdropw, ← htake, List.take_append_drop]
    rw [e1, List.drop_append_of_le_length (by simp; omega), List.drop_take]
    simp only [State.pending, Nat.add_sub_cancel_left, List.append_assoc]
  have hd0 : r.data.length ≠ 0 := by simpa using h0
  refine ⟨overwrite s.arr (s.off + s.done) (r.data ++ r.scratch),
    ((overwrite s.arr (s.off + s.done) (r.data ++ r.scratch)).drop s.off).drop (r.data.length + s.done),
    if r.err = ReadErr.other then s.errs + 1 else s.errs, by rw [overwrite_length hb, hsz], ?_, ?_⟩
  · simp only [List.length_append, List.length_drop, overwrite_length hb] at hb ⊢; omega
  unfold step
  simp only
  rw [if_neg (by simp [hd0]), if_neg hd0]
  generalize overwrite s.arr (s.off + s.done) (r.data ++ r.scratch) = arr at *
  have hal : s.pending.length + r.data.length ≤ (arr.drop s.off).length := by rw [hbuf]; simp
  have hsub := Slice.sub_nat (s := Slice.exact (arr.drop s.off)) (i := 0) (j := r.data.length + s.done) (by omega)
    (by simp only [Slice.exact, Slice.len_mk]; omega)
  simp only [Slice.exact, List.drop_zero, List.append_nil] at hsub
  rw [show ((0 : Nat) : Int) = 0 from rfl] at hsub
  simp only [Slice.exact]
  rw [hsub]
  simp only [Out.ret_bind]
  have hdata : (arr.drop s.off).take (r.data.length + s.done) = s.pending ++ r.data := by
    rw [hbuf, List.take_left' (by simp; omega)]
  rw [hdata]
  rfl

theorem pending_init : init.pending = [] := by simp [init, State.pending]

/-- If `Parse` panics on the first bytes read, the program crashes. -/
theorem first_read_panics {t : Transport} {r : Read} (hf : r.Fits init) (h0 : r.data ≠ [])
    (hp : ∀ spare, (r.data.length + spare.length ≤ readBuffer) →
      parse (some ⟨r.data, spare⟩) (some t) (decide (r.err = .eof)) = .panic) :
    Run t init [r] .panic := by
  have : step t init r = .panic := by
    obtain ⟨arr, spare, errs, _, h1, h2⟩ := step_eq (t := t) mem_init hf h0
    rw [pending_init, List.nil_append] at h1
    rw [h2, pending_init, List.nil_append]
    unfold parseLoop
    rw [hp spare h1]
    rfl
  rw [← this]
  exact Run.single hf

theorem fits_init {r : Read} (h : r.data.length + r.scratch.length ≤ 65536) : r.Fits init := by
  simp only [Read.Fits, State.room, init, List.length_replicate]
  have : readBuffer = 65536 := rfl
  omega

/-- C41 is violated: with the terminated transports, a read that ends right after the `-` of a message
without structured data crashes the program. -/
theorem C41_cut_after_dash_violated (t : Transport) (ht : t = .lfEnded ∨ t = .zeroEnded) (fs : List Bytes)
    (h6 : fs.length = 6) (hraw : ∀ f ∈ fs, RawField f) (hlen : (headerText fs ++ b!"-").length ≤ 65536) :
    Run t init [{ data := headerText fs ++ b!"-" }] .panic :=
  first_read_panics (fits_init (by simpa using hlen)) (by simp)
    (fun _ _ => (C09_terminated_panics_exactly_partial t ht _ _).mpr ⟨fs, [], .dash h6 hraw⟩)

/-- The decoding loop panics when `Parse` panics on what follows some whole frames. -/
theorem Tok.parseLoop_panics {α : Type} {t : Transport} {enc : α → Bytes} {ready safe : α → Bytes → Prop}
    {Q : α → MsgImm → Option Err → Prop} {eof : Bool} : ∀ (as : List α), Cuts t enc ready safe Q eof as →
    (∀ a ∈ as, ∀ x, ready a (enc a ++ x)) → ∀ (b spare : Bytes)
    (out : List (MsgImm × Option Err)) (fuel : Nat), as.length < fuel → b ≠ [] →
    (∀ spare, parse (some ⟨b, spare⟩) (some t) eof = .panic) →
    parseLoop t eof fuel ⟨as.flatMap enc ++ b, spare⟩ out = .panic := by
  intro as
  induction as with
  | nil =>
    intro _ _ b spare out fuel hf hb hp
    obtain ⟨fuel, rfl⟩ : ∃ f, fuel = f + 1 := ⟨fuel - 1, by omega⟩
    unfold parseLoop
    simp [hp]
  | cons a as ih =>
    intro hc hr b spare out fuel hf hb hp
    obtain ⟨fuel, rfl⟩ : ∃ f, fuel = f + 1 := ⟨fuel - 1, by omega⟩
    rw [List.flatMap_cons, List.append_assoc]
    obtain ⟨m, e, hpa, _⟩ := hc.take a (by simp) (as.flatMap enc ++ b) spare (hr a (by simp) _)
    unfold parseLoop
    rw [hpa]
    simp only [Out.ret_bind]
    rw [if_neg (by simp [hb])]
    exact ih (by simpa using hc.drop 1) (fun a ha => hr a (by simp [ha])) b spare _ fuel (by simp at hf; omega) hb hp

/-- Where a stream of lines is cut right after the `-` of a line. -/
def Spec.CutAfterDash (c : UInt8) (ls : List (List Bytes × Bytes)) (R : Bytes) : Prop :=
  ∃ k l, ls[k]? = some l ∧ R = (ls.take k).flatMap (fun l => lineText l ++ [c]) ++ (headerText l.1 ++ b!"-")

theorem step_cut_panics {t : Transport} {c : UInt8} (ht : t.term = some c) {ls : List (List Bytes × Bytes)}
    (hls : ∀ l ∈ ls, Line c l.1 l.2) {s : State} {r : Read} {R : Bytes} {k : Nat} (hm : Mem s)
    (hfl : Flow (fun l => lineText l ++ [c]) (fun l b => (lineText l ++ [c]).length ≤ b.length)
      (fun l m e => Conveys (lineText l) m e) ls s R k) (hf : r.Fits s) (h0 : r.data ≠ [])
    (hcut : CutAfterDash c ls (R ++ r.data)) : step t s r = .panic := by
  obtain ⟨j, l, hj, hR⟩ := hcut
  have htt : t = .lfEnded ∨ t = .zeroEnded := by rcases t <;> simp [term] at ht <;> simp
  have hjl : j < ls.length := (List.getElem?_eq_some_iff.mp hj).1
  have hl : l ∈ ls := List.mem_of_getElem? hj
  have hb := hfl.bytes
  rw [hb, List.append_assoc] at hR
  have hkj : k ≤ j := by
    rcases Nat.lt_or_ge j k with hlt | hge
    · exfalso
      have h1 := (flatMap_take_prefix (fun l => lineText l ++ [c]) ls (i := j + 1) (j := k) hlt).length_le
      rw [List.take_add_one, List.flatMap_append, hj] at h1
      have h2 := congrArg List.length hR
      simp [lineText] at h1 h2
      omega
    · exact hge
  have hsplit : (ls.take j).flatMap (fun l => lineText l ++ [c]) =
      (ls.take k).flatMap (fun l => lineText l ++ [c]) ++ ((ls.drop k).take (j - k)).flatMap (fun l => lineText l ++ [c]) := by
    rw [← List.flatMap_append, ← List.take_add, Nat.add_sub_cancel' hkj]
  rw [hsplit, List.append_assoc] at hR
  have hpd := List.append_cancel_left hR
  obtain ⟨arr, spare, errs, _, _, hstep⟩ := step_eq (t := t) hm hf h0
  rw [hstep, hpd]
  rw [parseLoop_panics _ ((cuts_line ht _ (fun x hx => hls x (List.mem_of_mem_drop (List.mem_of_mem_take hx))) _)) (by intro a _ x; simp)]
  · rfl
  · have : ∀ as : List (List Bytes × Bytes), as.length ≤ (as.flatMap fun l => lineText l ++ [c]).length := by
      intro as
      induction as with
      | nil => simp
      | cons a as ih => simp at ih ⊢; omega
    have := this ((ls.drop k).take (j - k))
    simp only [List.length_append] at this ⊢; omega
  · simp
  · intro sp
    exact (C09_terminated_panics_exactly_partial t htt _ _).mpr ⟨l.1, [], .dash (hls l hl).six (fun f hf => ((hls l hl).raw f hf).1)⟩

theorem run_noCut {t : Transport} {c : UInt8} (ht : t.term = some c) {ls : List (List Bytes × Bytes)}
    (hls : ∀ l ∈ ls, Line c l.1 l.2) {s : State} {rs : List Read} {o : Out (Bool × State)} (h : Run t s rs o) : ∀ {R : Bytes} {k : Nat},
    Mem s → Flow (fun l => lineText l ++ [c]) (fun l b => (lineText l ++ [c]).length ≤ b.length)
      (fun l m e => Conveys (lineText l) m e) ls s R k → R ++ arrived rs <+: ls.flatMap (fun l => lineText l ++ [c]) →
    ¬ CutAfterDash c ls R → o ≠ .panic →
    ∀ pre r post, rs = pre ++ r :: post → ¬ CutAfterDash c ls (R ++ arrived (pre ++ [r])) := by
  have safe : ∀ R, ¬ CutAfterDash c ls R → Safe (fun l => lineText l ++ [c]) (fun l b => (lineText l ++ [c]).length ≤ b.length)
      (fun l b => b ≠ headerText l.1 ++ b!"-") ls R := by
    rintro R hR k a b ha hb _ _ rfl
    exact hR ⟨k, a, ha, hb⟩
  induction h with
  | nil => intro R k _ _ _ _ _ pre r post e; simp at e
  | @cons s s1 r rs o hf hs _ ih =>
    intro R k hm hfl hp hR ho
    have hp1 : R ++ r.data <+: ls.flatMap (fun l => lineText l ++ [c]) := by
      refine List.IsPrefix.trans ?_ hp
      simp only [arrived, List.flatMap_cons, ← List.append_assoc]
      exact List.prefix_append _ _
    have hnc : ¬ CutAfterDash c ls (R ++ r.data) := by
      by_cases h0 : r.data = []
      · rwa [h0, List.append_nil]
      · intro hcut
        rw [step_cut_panics ht hls hm hfl hf h0 hcut] at hs
        cases hs
    obtain ⟨s2, h1, k1, hk1, h2, _⟩ := step_flow hm hfl hf hp1 (fun _ => ⟨cuts_line ht ls hls _, safe _ hnc⟩)
    have hm1 := (step_mem hm hf h1).1
    rw [h1] at hs
    simp only [Out.ret.injEq, Prod.mk.injEq] at hs
    obtain ⟨_, rfl⟩ := hs
    intro pre x post e
    cases pre with
    | nil =>
      simp only [List.nil_append, List.cons.injEq] at e
      obtain ⟨rfl, _⟩ := e
      simpa [arrived] using hnc
    | cons y pre =>
      simp only [List.cons_append, List.cons.injEq] at e
      obtain ⟨rfl, e⟩ := e
      have := ih hm1 h2 (by simpa [arrived] using hp) hnc ho pre x post e
      simpa [arrived] using this
  | @last s r o hf hs hn =>
    intro R k hm hfl hp hR ho pre x post e
    have hnc : ¬ CutAfterDash c ls (R ++ r.data) := by
      by_cases h0 : r.data = []
      · rwa [h0, List.append_nil]
      · intro hcut
        rw [step_cut_panics ht hls hm hfl hf h0 hcut] at hs
        exact ho hs.symm
    cases pre with
    | nil =>
      simp only [List.nil_append, List.cons.injEq] at e
      obtain ⟨rfl, _⟩ := e
      simpa [arrived] using hnc
    | cons y pre => simp at e

/-- **C41.** On a stream of messages without structured data, framed with the LF or the NUL transport, the receiver
crashes if and only if a read ends right after the `-` of one of them: there is no other way to crash it, and no such
cut is survived. -/
theorem C41_crashes_exactly (t : Transport) (c : UInt8) (ht : t = .lfEnded ∧ c = 10 ∨ t = .zeroEnded ∧ c = 0)
    (ls : List (List Bytes × Bytes)) (hls : ∀ l ∈ ls, Line c l.1 l.2)
    (reads : List Read) (o : Out (Bool × State)) (hrun : Run t init reads o)
    (hst : arrived reads <+: stream t (ls.map lineText)) : o = .panic ↔ ¬ NoCutAfterDash c ls reads := by
  have hterm : t.term = some c := by rcases ht with ⟨rfl, rfl⟩ | ⟨rfl, rfl⟩ <;> rfl
  have henc : ∀ d, t.encode d = d ++ [c] := by intro d; rcases ht with ⟨rfl, rfl⟩ | ⟨rfl, rfl⟩ <;> rfl
  have hmap : stream t (ls.map lineText) = ls.flatMap (fun l => lineText l ++ [c]) := by
    unfold stream; rw [List.flatMap_map]; congr 1; funext x; exact henc _
  constructor
  · intro ho hn
    obtain ⟨b, s, _, h1, _⟩ := C41_reassembly_partial t c ht ls hls reads o hrun hst hn
    rw [ho] at h1; cases h1
  · intro hn
    refine Classical.byContradiction fun ho => hn ?_
    intro pre r post e k l hk hcut
    refine run_noCut hterm hls hrun (R := []) mem_init flow_init (by rw [List.nil_append, ← hmap]; exact hst) ?_ ho pre r post e ⟨k, l, hk, by simpa using hcut⟩
    rintro ⟨k, l, _, h⟩
    simp at h

example : ¬ NoCutAfterDash 10 sampleLines [{ data := b!"<34>1 - host" }, { data := b!" su - ID47 -" }] := by
  intro h
  exact h [{ data := b!"<34>1 - host" }] { data := b!" su - ID47 -" } [] rfl 0 _ rfl (by decide +kernel)

/-- C41 is violated: a message without text is not delivered, not even at the end of file, when it is the last
one (and its terminator comes in the same read as its `-`). -/
theorem C41_no_text_violated (t : Transport) (c : UInt8) (ht : t = .lfEnded ∧ c = 10 ∨ t = .zeroEnded ∧ c = 0)
    (fs : List Bytes) (h6 : fs.length = 6) (hraw : ∀ f ∈ fs, RawField f) (r : Read) (o : Out (Bool × State))
    (hr : r.data = t.encode (headerText fs ++ b!"-")) (hrun : Run t init [r] o) :
    ∃ b s, o = .ret (b, s) ∧ s.out = [] := by
  have henc : t.encode (headerText fs ++ b!"-") = headerText fs ++ [DASH, c] := by
    rcases ht with ⟨rfl, rfl⟩ | ⟨rfl, rfl⟩ <;> simp [encode]
  have key : ∀ spare eof, ∃ m e, parse (some ⟨r.data, spare⟩) (some t) eof = .ret (m, none, e) := by
    intro spare eof
    have hne : (Slice.mk r.data spare).len ≠ 0 := by rw [Slice.len_mk, hr, henc]; simp
    have hp : parse (some ⟨r.data, spare⟩) (some t) eof = parseBody ⟨r.data, spare⟩ none none (some t) eof := by
      generalize Slice.mk r.data spare = d at hne
      unfold parse
      rcases ht with ⟨rfl, rfl⟩ | ⟨rfl, rfl⟩ <;> simp [Transport.prefixStrip, hne]
    rw [hp, parseBody_header (some t) eof none none ⟨r.data, spare⟩ h6 hraw (tail := [DASH, c]) (by rw [hr, henc])]
    rw [if_neg (by simp), if_neg (by simp)]
    have : searchNextSep ⟨[DASH, c], spare⟩ SP = .error .posNotFound := by
      rcases ht with ⟨rfl, rfl⟩ | ⟨rfl, rfl⟩ <;> rfl
    rw [this]
    exact ⟨_, _, rfl⟩
  obtain ⟨b, s, h1, _, h2⟩ := never_delivers r.data (by rw [hr, henc]; simp) [r] o hrun
    (by simp [arrived]) (by
      intro pre r' post e h0 spare
      match pre, e with
      | [], e =>
        simp only [List.nil_append, List.cons.injEq] at e
        rw [← e.1]
        simpa [arrived] using key spare _
      | x :: pre, e => simp at e)
  exact ⟨b, s, h1, h2⟩

/-- Two messages with structured data. -/
def Spec.twoLines : List Bytes := [b!"<0>1 - - - - - [a b=\"c\"] x", b!"<0>1 - - - - - [d e=\"f\"] y"]

theorem layout_twoLines : ∃ idx txt, Layout (b!"<0>1 - - - - - [a b=\"c\"] x\n<0>1 - - - - - [d e=\"f\"] y\n")
    [b!"<0>1", b!"-", b!"-", b!"-", b!"-", b!"-"] [b!"[a b=\"c\"]", b!" x\n<0>1 - - - - - [d e=\"f\"]"]
    (some (SP :: (b!"y" ++ LF :: []))) idx txt := by
  have hi : Items (b!"[a b=\"c\"] x\n<0>1 - - - - - [d e=\"f\"] y\n") [b!"[a b=\"c\"]", b!" x\n<0>1 - - - - - [d e=\"f\"]"]
      (some b!" y\n") :=
    .more (.last (p := b!"[a b=\"c") (by decide)) (.more (.last (p := b!" x\n<0>1 - - - - - [d e=\"f") (by decide))
      (.quiet (.last (by decide) (by decide))))
  exact ⟨_, _, Layout.sd (fs := [b!"<0>1", b!"-", b!"-", b!"-", b!"-", b!"-"]) rfl (by decide) hi
    ⟨b!"[a", b!"b=\"c\"] x\n<0>1 - - - - - [d e=\"f\"] y\n", by decide, by decide, by decide⟩⟩

/-- C41 is violated: when a read returns two messages with structured data, they are delivered as one message,
which contains the terminator of the first one. -/
theorem C41_structured_data_violated :
    ∃ s d, Run .lfEnded init [{ data := stream .lfEnded twoLines }] (.ret (true, s)) ∧ s.out = [d] ∧ d.err = none ∧
      d.msg.string = b!"<0>1 - - - - - [a b=\"c\"] x\n<0>1 - - - - - [d e=\"f\"] y" := by
  have hdata : stream .lfEnded twoLines = b!"<0>1 - - - - - [a b=\"c\"] x\n<0>1 - - - - - [d e=\"f\"] y\n" := by decide
  rw [hdata]
  have hf : Read.Fits { data := b!"<0>1 - - - - - [a b=\"c\"] x\n<0>1 - - - - - [d e=\"f\"] y\n" } init :=
    fits_init (by decide)
  obtain ⟨arr, spare, errs, _, _, h2⟩ := step_eq (t := .lfEnded) mem_init hf (by simp)
  obtain ⟨idx, txt, hL⟩ := layout_twoLines
  obtain ⟨pre, h3, _, h4⟩ := parse_term_frame (t := .lfEnded) rfl
    ⟨b!"<0>1 - - - - - [a b=\"c\"] x\n<0>1 - - - - - [d e=\"f\"] y\n", spare⟩ false hL (by decide)
  have hpre : pre = b!"<0>1 - - - - - [a b=\"c\"] x\n<0>1 - - - - - [d e=\"f\"]" := by
    have : b!"<0>1 - - - - - [a b=\"c\"] x\n<0>1 - - - - - [d e=\"f\"]" ++ b!" y\n" = pre ++ b!" y\n" := h3
    exact (List.append_cancel_right this).symm
  subst hpre
  rw [pending_init, List.nil_append] at h2
  unfold parseLoop at h2
  simp only [reduceCtorEq, decide_false] at h2
  rw [h4] at h2
  simp only [Out.ret_bind, Slice.len_mk, List.length_nil, if_true, Out.pure_eq, List.nil_append, List.map_cons, List.map_nil] at h2
  have hrun := Run.single (t := .lfEnded) hf
  rw [h2] at hrun
  refine ⟨_, ⟨0, ⟨⟨b!"<0>1 - - - - - [a b=\"c\"] x\n<0>1 - - - - - [d e=\"f\"] y", LF :: spare⟩, idx, txt⟩, none⟩, hrun, ?_,
    rfl, rfl⟩
  unfold advance; simp only; split <;> rfl

/-! ## C42 -/

/-- C42 (partial): as long as the peer sends RFC 5425 frames of at most 500 bytes, the tokenizer always gives
`Read` a buffer with room for at least one byte, wherever the stream is cut. Missing: larger frames, see
`C42_stall_violated`. -/
theorem C42_room_partial (ps : List Bytes) (hps : ∀ p ∈ ps, (rfc5425.encode p).length ≤ 500)
    (reads : List Read) (b : Bool) (s : State) (hrun : Run .rfc5425 init reads (.ret (b, s)))
    (hst : arrived reads <+: stream .rfc5425 ps)
    (heof : (∃ r ∈ reads, r.err = .eof ∧ r.data ≠ []) → arrived reads = stream .rfc5425 ps) : 0 < s.room := by
  have hl : ∀ p ∈ ps, p.length < 2 ^ 62 := by
    intro p hp
    have := hps p hp
    have h2 : (rfc5425.encode p).length = (natDec p.length).length + 1 + p.length := by simp [encode]; omega
    omega
  obtain ⟨b', s', h1, h2, h3, k, h4⟩ := flow_5425 ps hl reads _ hrun hst heof
  simp only [Out.ret.injEq, Prod.mk.injEq] at h1
  obtain ⟨rfl, rfl⟩ := h1
  have hsz := h2.size
  have hbig := h2.big
  have hpl := h2.pending_length
  unfold State.room
  rcases h4.wait with h | ⟨a, ha, hr⟩
  · rw [h, List.length_nil] at hpl; omega
  · have ham : a ∈ ps := List.mem_of_getElem? ha
    have := hps a ham
    have : s.pending.length < 500 := by
      rcases Nat.lt_or_ge s.pending.length 500 with h | h
      · exact h
      · exact absurd ⟨by omega, by omega⟩ hr
    omega

/-- C42 (partial): therefore every stream of such frames can be read to its end, for instance byte by byte. -/
theorem C42_progress_partial (ps : List Bytes) (hps : ∀ p ∈ ps, (rfc5425.encode p).length ≤ 500) (n : Nat)
    (hn : n ≤ (stream .rfc5425 ps).length) :
    ∃ s, Run .rfc5425 init (((stream .rfc5425 ps).take n).map fun x => { data := [x] }) (.ret (true, s)) := by
  have hrec : ∀ l : Bytes, arrived (l.map fun x => ({ data := [x] } : Read)) = l := by
    intro l; induction l with
    | nil => rfl
    | cons x l ih => simp only [arrived, List.map_cons, List.flatMap_cons] at ih ⊢; rw [ih]; rfl
  have hnoeof : ∀ l : Bytes, ¬ ∃ r ∈ l.map (fun x => ({ data := [x] } : Read)), r.err = .eof := by
    rintro l ⟨r, hr, he⟩
    rw [List.mem_map] at hr
    obtain ⟨x, _, rfl⟩ := hr
    simp at he
  induction n with
  | zero => exact ⟨init, by simpa using Run.nil⟩
  | succ n ih =>
    obtain ⟨s, hs⟩ := ih (by omega)
    have hroom := C42_room_partial ps hps _ _ _ hs (by rw [hrec]; exact List.take_prefix _ _) (fun ⟨r, hr, he, _⟩ => absurd ⟨r, hr, he⟩ (hnoeof _))
    have hlt : n < (stream .rfc5425 ps).length := by omega
    have hl : ∀ p ∈ ps, p.length < 2 ^ 62 := by
      intro p hp
      have := hps p hp
      have h2 : (rfc5425.encode p).length = (natDec p.length).length + 1 + p.length := by simp [encode]; omega
      omega
    have hrun := hs.append s rfl (Run.single (r := { data := [(stream .rfc5425 ps)[n]] }) (by
      simp only [Read.Fits, List.length_singleton, List.length_nil]; omega))
    have e : ((stream .rfc5425 ps).take n).map (fun x => ({ data := [x] } : Read)) ++ [{ data := [(stream .rfc5425 ps)[n]] }] =
        ((stream .rfc5425 ps).take (n + 1)).map (fun x => ({ data := [x] } : Read)) := by
      rw [List.take_add_one, List.map_append, List.getElem?_eq_getElem hlt]; rfl
    rw [e] at hrun
    obtain ⟨b, s', h1, _, h3, _⟩ := flow_5425 ps hl _ _ hrun (by rw [hrec]; exact List.take_prefix _ _)
      (fun ⟨r, hr, he, _⟩ => absurd ⟨r, hr, he⟩ (hnoeof _))
    have hb : b = true := h3.mpr (fun r hr he => hnoeof _ ⟨r, hr, he⟩)
    subst hb
    exact ⟨s', by rw [← h1]; exact hrun⟩

/-- Two messages, for the examples. -/
def Spec.samplePayloads : List Bytes :=
  [b!"<165>1 2003-10-11T22:14:15.003Z host app - ID47 - hello", b!"<34>1 - - su - ID47 [a b=\"c\"] hi"]

example : ∀ p ∈ samplePayloads, p.length < 2 ^ 62 ∧ 20 ≤ (rfc5425.encode p).length ∧ (rfc5425.encode p).length ≤ 500 := by
  decide +kernel
/-- The hypotheses of C40, C42 and C43 are met: the two messages, read byte by byte. -/
example : ∃ s, Run .rfc5425 init ((stream .rfc5425 samplePayloads).map fun x => { data := [x] }) (.ret (true, s)) ∧
    Each (fun p d => Conveys p d.msg d.err) samplePayloads s.out ∧ s.out.length = 2 := by
  have hlen : ∀ p ∈ samplePayloads, p.length < 2 ^ 62 ∧ 20 ≤ (rfc5425.encode p).length := by decide +kernel
  obtain ⟨s, h⟩ := C42_progress_partial samplePayloads (by decide +kernel) _ (Nat.le_refl _)
  rw [List.take_length] at h
  have hrec : ∀ l : Bytes, arrived (l.map fun x => ({ data := [x] } : Read)) = l := by
    intro l; induction l with
    | nil => rfl
    | cons x l ih => simp only [arrived, List.map_cons, List.flatMap_cons] at ih ⊢; rw [ih]; rfl
  obtain ⟨b, s', h1, _, h2⟩ := C40_all_delivered_partial samplePayloads hlen _ _ h (hrec _)
  simp only [Out.ret.injEq, Prod.mk.injEq] at h1
  obtain ⟨_, rfl⟩ := h1
  refine ⟨s, h, h2, ?_⟩
  generalize s.out = out at h2
  cases h2 with | cons _ h2 => cases h2 with | cons _ h2 => cases h2; rfl

/-- A tokenizer whose buffer is full: the next reads return nothing and change nothing. -/
theorem run_stalled {t : Transport} {s : State} {rs : List Read} {o : Out (Bool × State)} (h : Run t s rs o) :
    s.room = 0 → (∀ r ∈ rs, r.err ≠ .eof) →
    arrived rs = [] ∧ ∃ s', o = .ret (true, s') ∧ s'.out = s.out ∧ s'.room = 0 := by
  have key : ∀ (s s' : State) (r : Read) (b : Bool), r.Fits s → s.room = 0 → r.err ≠ .eof →
      ∃ s', step t s r = .ret (true, s') ∧ r.data = [] ∧ s'.out = s.out ∧ s'.room = 0 := by
    intro s s' r b hf h0 he
    have hd : r.data = [] := List.length_eq_zero_iff.mp (by simp only [Read.Fits] at hf; omega)
    have hsc : r.scratch = [] := List.length_eq_zero_iff.mp (by simp only [Read.Fits] at hf; omega)
    unfold step
    simp only [hd, hsc, he, decide_false, List.length_nil, List.append_nil]
    refine ⟨{ s with arr := overwrite s.arr (s.off + s.done) [], errs := if r.err = .other then s.errs + 1 else s.errs },
      by simp, trivial, rfl, ?_⟩
    simp only [State.room, overwrite, List.append_nil, List.length_nil, Nat.add_zero, List.take_append_drop] at h0 ⊢
    exact h0
  induction h with
  | nil => intro h0 _; exact ⟨rfl, _, rfl, rfl, h0⟩
  | @cons s s1 r rs o hf hs _ ih =>
    intro h0 he
    obtain ⟨s2, h1, h2, h3, h4⟩ := key s s1 r true hf h0 (he r (by simp))
    rw [h1] at hs
    simp only [Out.ret.injEq, Prod.mk.injEq, true_and] at hs
    subst hs
    obtain ⟨g1, s3, g2, g3, g4⟩ := ih h4 (fun r' hr' => he r' (by simp [hr']))
    refine ⟨?_, s3, g2, by rw [g3, h3], g4⟩
    simp only [arrived, List.flatMap_cons, h2, List.nil_append] at g1 ⊢
    exact g1
  | @last s r o hf hs hn =>
    intro h0 he
    obtain ⟨s2, h1, _⟩ := key s s r true hf h0 (he r (by simp))
    rw [h1] at hs
    exact absurd hs.symm (hn s2)

/-- The states of a tokenizer that reads a frame and as much as it can of a second one that does not fit. -/
theorem stall_states (p1 p2 : Bytes) (h20 : 20 ≤ (rfc5425.encode p1).length)
    (h1 : (rfc5425.encode p1).length + 500 ≤ 65536) (h2 : 65536 < (rfc5425.encode p1).length + (rfc5425.encode p2).length)
    (hp2 : p2.length < 65536) :
    ∃ s1 s2 d, Read.Fits { data := rfc5425.encode p1 } init ∧ step .rfc5425 init { data := rfc5425.encode p1 } = .ret (true, s1) ∧
      s1.room = 65536 - (rfc5425.encode p1).length ∧
      Read.Fits { data := (rfc5425.encode p2).take (65536 - (rfc5425.encode p1).length) } s1 ∧
      step .rfc5425 s1 { data := (rfc5425.encode p2).take (65536 - (rfc5425.encode p1).length) } = .ret (true, s2) ∧
      s2.out = [d] ∧ s2.room = 0 := by
  have hrb : readBuffer = 65536 := rfl
  have hel : ∀ p, (rfc5425.encode p).length = (natDec p.length).length + 1 + p.length := by
    intro p; simp [encode]; omega
  have e1 := hel p1
  have e2 := hel p2
  have hps : ∀ p ∈ [p1, p2], p.length < 2 ^ 62 := by
    intro p hp
    simp only [List.mem_cons, List.not_mem_nil, or_false] at hp
    rcases hp with rfl | rfl <;> omega
  have hcuts := cuts_5425 [p1, p2] hps false
  have hsafe : ∀ R, Safe rfc5425.encode (fun p b => (rfc5425.encode p).length ≤ b.length ∧ 20 ≤ b.length)
      (fun _ b => false = true → b.length < 20) [p1, p2] R := by
    intro R k a b _ _ _ _ h; simp at h
  generalize hn1 : (rfc5425.encode p1).length = n1 at *
  -- first read
  have hf1 : Read.Fits { data := rfc5425.encode p1 } init := fits_init (by simp only [List.length_nil]; omega)
  obtain ⟨s1, hs1, k1, _, hfl1, hoff1, _⟩ := step_flow (t := .rfc5425) mem_init (flow_init (as := [p1, p2])) hf1
    (by simp) (fun _ => ⟨hcuts, hsafe _⟩)
  have hm1 := (step_mem mem_init hf1 hs1).1
  have hk1 : k1 = 1 ∧ s1.pending = [] := by
    have hb := hfl1.bytes
    simp only [List.nil_append] at hb
    have hlen := congrArg List.length hb
    rw [List.length_append, hn1] at hlen
    match k1, hfl1 with
    | 0, hfl1 =>
      exfalso
      simp only [List.take_zero, List.flatMap_nil, List.length_nil] at hlen
      rcases hfl1.wait with h | ⟨a, ha, hr⟩
      · rw [h, List.length_nil] at hlen; omega
      · simp only [List.getElem?_cons_zero, Option.some.injEq] at ha
        subst ha
        exact hr ⟨by omega, by omega⟩
    | 1, hfl1 =>
      refine ⟨rfl, List.length_eq_zero_iff.mp ?_⟩
      simp only [List.take_succ_cons, List.take_zero, List.flatMap_cons, List.flatMap_nil, List.append_nil] at hlen
      omega
    | 2, hfl1 =>
      exfalso
      simp only [List.take_succ_cons, List.take_zero, List.flatMap_cons, List.flatMap_nil, List.append_nil,
        List.length_append] at hlen
      omega
    | k + 3, hfl1 => have := hfl1.le; simp at this
  obtain ⟨rfl, hp1⟩ := hk1
  have hd1 : s1.done = 0 := by have := hm1.pending_length; rw [hp1] at this; simpa using this.symm
  have ho1 : s1.off = n1 := by
    have := hoff1 (by simp [encode]) n1 (by rw [hd1]; simp only [init, hn1])
    rw [this, if_neg (by simp only [init]; omega)]
    simp [init]
  have hr1 : s1.room = 65536 - n1 := by simp only [State.room, hm1.size, ho1, hd1]; omega
  -- second read
  have hlt : ((rfc5425.encode p2).take (65536 - n1)).length = 65536 - n1 := by
    rw [List.length_take]; omega
  have hne2 : (rfc5425.encode p2).take (65536 - n1) ≠ [] := by
    intro h; rw [h, List.length_nil] at hlt; omega
  have hf2 : Read.Fits { data := (rfc5425.encode p2).take (65536 - n1) } s1 := by
    simp only [Read.Fits, hlt, hr1, List.length_nil]; omega
  have hpre2 : [] ++ rfc5425.encode p1 ++ (rfc5425.encode p2).take (65536 - n1) <+: [p1, p2].flatMap rfc5425.encode := by
    simp only [List.nil_append, List.flatMap_cons, List.flatMap_nil, List.append_nil]
    exact (List.prefix_append_right_inj _).mpr (List.take_prefix _ _)
  obtain ⟨s2, hs2, k2, hk2, hfl2, hoff2, _⟩ := step_flow (t := .rfc5425) hm1 hfl1 hf2 hpre2 (fun _ => ⟨hcuts, hsafe _⟩)
  have hm2 := (step_mem hm1 hf2 hs2).1
  have hk2' : k2 = 1 ∧ s2.pending.length = 65536 - n1 := by
    have hb := hfl2.bytes
    have hlen := congrArg List.length hb
    simp only [List.nil_append, List.length_append, hn1, hlt] at hlen
    match k2, hfl2 with
    | 0, _ => omega
    | 1, _ =>
      refine ⟨rfl, ?_⟩
      simp only [List.take_succ_cons, List.take_zero, List.flatMap_cons, List.flatMap_nil, List.append_nil] at hlen
      omega
    | 2, _ =>
      exfalso
      simp only [List.take_succ_cons, List.take_zero, List.flatMap_cons, List.flatMap_nil, List.append_nil,
        List.length_append] at hlen
      omega
    | k + 3, hfl2 => have := hfl2.le; simp at this
  obtain ⟨rfl, hp2⟩ := hk2'
  have hd2 : s2.done = 65536 - n1 := by rw [← hm2.pending_length, hp2]
  have ho2 : s2.off = n1 := by
    have := hoff2 hne2 0 (by rw [hd2, hd1, hlt]; omega)
    rw [this, if_neg (by rw [ho1]; omega), ho1]
    rfl
  have hr2 : s2.room = 0 := by simp only [State.room, hm2.size, ho2, hd2]; omega
  obtain ⟨d, hout⟩ : ∃ d, s2.out = [d] := by
    have := hfl2.out
    simp only [List.take_succ_cons, List.take_zero] at this
    generalize s2.out = out at this
    cases this with
    | cons _ h => cases h; exact ⟨_, rfl⟩
  exact ⟨s1, s2, d, hf1, hs1, hr1, hf2, hs2, hout, hr2⟩

/-- C42 is violated: two frames of less than 64 KiB are enough to stop a connection for ever. When the first
one leaves at least 500 bytes in the buffer, but less than the second frame needs, the buffer gets full: `Read`
is called with an empty buffer again and again, it can only return nothing, and nothing is ever delivered any
more. -/
theorem C42_stall_violated (p1 p2 : Bytes) (h20 : 20 ≤ (rfc5425.encode p1).length)
    (h1 : (rfc5425.encode p1).length + 500 ≤ 65536) (h2 : 65536 < (rfc5425.encode p1).length + (rfc5425.encode p2).length)
    (hp2 : p2.length < 65536) :
    ∃ s d, Run .rfc5425 init [{ data := rfc5425.encode p1 },
        { data := (rfc5425.encode p2).take (65536 - (rfc5425.encode p1).length) }] (.ret (true, s)) ∧
      s.out = [d] ∧ s.room = 0 ∧
      ∀ reads o, Run .rfc5425 s reads o → (∀ r ∈ reads, r.err ≠ .eof) →
        arrived reads = [] ∧ ∃ s', o = .ret (true, s') ∧ s'.out = [d] ∧ s'.room = 0 := by
  obtain ⟨s1, s2, d, hf1, hs1, _, hf2, hs2, hout, hr2⟩ := stall_states p1 p2 h20 h1 h2 hp2
  refine ⟨s2, d, .cons hf1 hs1 (.cons hf2 hs2 .nil), hout, hr2, ?_⟩
  intro reads o hrun he
  rw [← hout]
  exact run_stalled hrun hr2 he

/-- Two parseable messages whose frames stall a connection. -/
example :
    let p1 := b!"<34>1 - - su - ID47 - " ++ List.replicate 64000 120
    let p2 := b!"<34>1 - - su - ID47 - " ++ List.replicate 2000 121
    20 ≤ (rfc5425.encode p1).length ∧ (rfc5425.encode p1).length + 500 ≤ 65536 ∧
      65536 < (rfc5425.encode p1).length + (rfc5425.encode p2).length ∧ p2.length < 65536 ∧
      (∃ fs xs o, Frame p1 fs xs o) ∧ (∃ fs xs o, Frame p2 fs xs o) := by
  simp only
  have h1 : ∀ n (c : UInt8), ((b!"<34>1 - - su - ID47 - " ++ List.replicate n c).length) = 22 + n := by
    intro n c; rw [List.length_append, List.length_replicate]; rfl
  have h2 : ∀ n (c : UInt8), (rfc5425.encode (b!"<34>1 - - su - ID47 - " ++ List.replicate n c)).length =
      (natDec (22 + n)).length + 1 + (22 + n) := by
    intro n c
    have : ∀ p, (rfc5425.encode p).length = (natDec p.length).length + 1 + p.length := by intro p; simp [encode]; omega
    rw [this, h1]
  have e1 : (natDec (22 + 64000)).length = 5 := by decide +kernel
  have e2 : (natDec (22 + 2000)).length = 4 := by decide +kernel
  have hF : ∀ t, Frame (b!"<34>1 - - su - ID47 - " ++ t) [b!"<34>1", b!"-", b!"-", b!"su", b!"-", b!"ID47"] [] (some (b!" " ++ t)) :=
    fun t => Frame.dashText (fs := [b!"<34>1", b!"-", b!"-", b!"su", b!"-", b!"ID47"]) rfl (by decide)
  refine ⟨?_, ?_, ?_, ?_, ⟨_, _, _, hF _⟩, ⟨_, _, _, hF _⟩⟩
  · rw [h2, e1]; omega
  · rw [h2, e1]; omega
  · rw [h2, h2, e1, e2]; omega
  · rw [h1]; omega

/-! ## C43 -/

/-- C43: whatever is read afterwards (with any reader, that may use all the buffer it is given as scratch
space), the bytes of a delivered message, read in the memory of the tokenizer, are the bytes that `String`
returned when the message was delivered; and the messages delivered are not changed. -/
theorem C43_immutable (t : Transport) (reads later : List Read) (s s' : State) (b : Bool)
    (h : Run t init reads (.ret (true, s))) (h' : Run t s later (.ret (b, s'))) :
    s.out <+: s'.out ∧ ∀ d ∈ s.out, s.bytesOf d = d.msg.string ∧ s'.bytesOf d = d.msg.string := by
  obtain ⟨hm, _⟩ := run_mem h mem_init _ _ rfl
  obtain ⟨hm', hp⟩ := run_mem h' hm _ _ rfl
  exact ⟨hp, fun d hd => ⟨(hm.held d hd).bytesOf, (hm'.held d (hp.subset hd)).bytesOf⟩⟩

/-! ## C60 -/

/-- C60: after a read that reports the end of file the tokenizer does not go on. -/
theorem C60_eof_ends (t : Transport) (s s' : State) (r : Read) (h : r.err = .eof) : step t s r ≠ .ret (true, s') :=
  fun h' => step_goes_on h' h

example : step .lfEnded init { data := [], err := .eof } = .ret (false, { init with arr := overwrite init.arr 0 [] }) := rfl

/-- C60 is violated: when reading fails (a connection reset, a deadline, a closed connection) the tokenizer
tries again, for ever: after `n` failed reads it goes on, having reported `n` errors. -/
theorem C60_read_error_violated (t : Transport) (s : State) (n : Nat) :
    ∃ s', Run t s (List.replicate n { data := [], err := .other }) (.ret (true, s')) ∧ s'.errs = s.errs + n ∧ s'.out = s.out := by
  induction n generalizing s with
  | zero => exact ⟨s, .nil, rfl, rfl⟩
  | succ n ih =>
    obtain ⟨s', h1, h2, h3⟩ := ih { s with arr := overwrite s.arr (s.off + s.done) [], errs := s.errs + 1 }
    refine ⟨s', .cons (by simp [Read.Fits]) rfl h1, by rw [h2]; simp only; omega, h3⟩

/-! ## C61 -/

/-- C61: with the RFC 5425 transport a payload that is not a message costs only itself: the messages before
and after it are delivered (this is part of `C40_reassembly_partial`, restated for one bad payload). -/
theorem C61_bad_payload_partial (before after : List Bytes) (bad : Bytes)
    (hps : ∀ p ∈ before ++ bad :: after, p.length < 2 ^ 62 ∧ 20 ≤ (rfc5425.encode p).length)
    (hgood : ∀ p ∈ before ++ after, ∃ fs xs o, Frame p fs xs o) (hbad : ¬ ∃ fs xs o, Frame bad fs xs o)
    (reads : List Read) (o : Out (Bool × State)) (hrun : Run .rfc5425 init reads o)
    (hst : arrived reads = stream .rfc5425 (before ++ bad :: after)) :
    ∃ b s x d y, o = .ret (b, s) ∧ s.out = x ++ d :: y ∧ d.err ≠ none ∧
      Each (fun p d => d.err = none ∧ d.msg.string = p) before x ∧
      Each (fun p d => d.err = none ∧ d.msg.string = p) after y := by
  obtain ⟨b, s, h1, _, h2⟩ := C40_all_delivered_partial _ hps reads o hrun hst
  have split : ∀ (as bs : List Bytes) (out : List Delivered), Each (fun p d => Conveys p d.msg d.err) (as ++ bs) out →
      ∃ x y, out = x ++ y ∧ Each (fun p d => Conveys p d.msg d.err) as x ∧ Each (fun p d => Conveys p d.msg d.err) bs y := by
    intro as bs
    induction as with
    | nil => intro out h; exact ⟨[], out, rfl, .nil, h⟩
    | cons a as ih =>
      intro out h
      cases h with
      | cons h h' =>
        obtain ⟨x, y, rfl, g1, g2⟩ := ih _ h'
        exact ⟨_ :: x, y, rfl, .cons h g1, g2⟩
  have weaken : ∀ (as : List Bytes) (out : List Delivered), (∀ p ∈ as, ∃ fs xs o, Frame p fs xs o) →
      Each (fun p d => Conveys p d.msg d.err) as out → Each (fun p d => d.err = none ∧ d.msg.string = p) as out := by
    intro as out ha h
    induction h with
    | nil => exact .nil
    | @cons p d as ds h _ ih =>
      refine .cons ?_ (ih (fun p hp => ha p (by simp [hp])))
      obtain ⟨fs, xs, o, hf⟩ := ha p (by simp)
      have h6 : fs.length = 6 := by cases hf <;> assumption
      match fs, h6, hf with
      | [a, b, c, d', e, f], _, hf => exact ⟨(h.message hf).1, (h.message hf).2.1⟩
  obtain ⟨x, y, h3, h4, h5⟩ := split _ _ _ h2
  cases h5 with
  | @cons _ d _ y' h5 h6 =>
    exact ⟨b, s, x, d, y', h1, h3, (h5.malformed hbad).1, weaken _ _ (fun p hp => hgood p (by simp [hp])) h4,
      weaken _ _ (fun p hp => hgood p (by simp [hp])) h6⟩

/-- A payload of 20 bytes that is not a message. -/
example : ¬ ∃ fs xs o, Frame (b!"garbage garbage garbage") fs xs o := by
  intro h
  obtain ⟨m, hm⟩ := (C09_nil_accepts (.exact b!"garbage garbage garbage") false).mpr h
  have : parse (some (.exact b!"garbage garbage garbage")) none false = .ret (MsgImm.zero, none, some .posNotFound) := by
    decide +kernel
  rw [this] at hm
  simp at hm

theorem parse_space (t : Transport) (x spare : Bytes) (eof : Bool) :
    ∃ m e, parse (some ⟨SP :: x, spare⟩) (some t) eof = .ret (m, none, e) := by
  have hl : (Slice.mk (SP :: x) spare).len ≠ 0 := by simp
  have hb : parseBody ⟨SP :: x, spare⟩ none none (some t) eof = .ret (MsgImm.zero, none, some .pos0) := by
    unfold parseBody
    rw [if_pos (by simp)]
    simp only [fieldLoop]
    rw [show ((0 : Nat) : Int) = 0 from rfl]
    have : Slice.from_ ⟨SP :: x, spare⟩ 0 = .ret ⟨SP :: x, spare⟩ := by
      have := Slice.from_nat (s := ⟨SP :: x, spare⟩) (i := 0) (by simp)
      simpa using this
    rw [this]
    rfl
  have term : ∀ c, t.term = some c → ∃ m e, parse (some ⟨SP :: x, spare⟩) (some t) eof = .ret (m, none, e) := by
    intro c hc
    refine ⟨MsgImm.zero, some .pos0, ?_⟩
    rw [← hb]
    generalize Slice.mk (SP :: x) spare = d at hl
    unfold parse
    cases t with
    | zeroEnded => simp [prefixStrip, hl]
    | lfEnded => simp [prefixStrip, hl]
    | rfc5425 => simp [term] at hc
  cases t with
  | zeroEnded => exact term _ rfl
  | lfEnded => exact term _ rfl
  | rfc5425 =>
    have hi : indexByte SP (SP :: x) = some 0 := rfl
    by_cases h20 : (Slice.mk (SP :: x) spare).len < 20
    · refine ⟨MsgImm.zero, none, ?_⟩
      have key : rfc5425.prefixStrip (some ⟨SP :: x, spare⟩) eof = .ret (none, none, none) := by
        unfold prefixStrip
        simp only [hl, h20, if_true, if_false]
      unfold parse
      simp only
      rw [key]
      rfl
    · refine ⟨MsgImm.zero, some .noHeader, ?_⟩
      have key : rfc5425.prefixStrip (some ⟨SP :: x, spare⟩) eof = .ret (none, none, some .noHeader) := by
        unfold prefixStrip
        simp only [hl, h20, if_false, hi]
      unfold parse
      simp only
      rw [key]
      rfl

/-- C61 is violated: a connection whose first byte is a space never delivers anything, neither a message nor
an error, whatever follows, with every transport. -/
theorem C61_poisoned_violated (t : Transport) (x : Bytes) (reads : List Read) (o : Out (Bool × State))
    (hrun : Run t init reads o) (hrec : arrived reads = b!" " ++ x) :
    ∃ b s, o = .ret (b, s) ∧ s.out = [] ∧ s.errs = (reads.filter fun r => r.err = .other).length := by
  have hne : ∀ pre r post, reads = pre ++ r :: post → r.data ≠ [] → ∃ y, arrived (pre ++ [r]) = SP :: y := by
    intro pre r post e h0
    have hpre : arrived (pre ++ [r]) <+: SP :: x := by
      have : arrived reads = arrived (pre ++ [r]) ++ arrived post := by rw [e]; simp [arrived]
      rw [hrec] at this
      exact ⟨_, this.symm⟩
    cases hb : arrived (pre ++ [r]) with
    | nil => simp [arrived] at hb; exact absurd hb.2 h0
    | cons z y =>
      rw [hb] at hpre
      rw [List.cons_prefix_cons] at hpre
      exact ⟨y, by rw [hpre.1]⟩
  obtain ⟨b, s, h1, _, h2⟩ := never_delivers (SP :: x) (by simp) reads o hrun (by rw [hrec]; exact List.prefix_refl _) (by
    intro pre r post e h0 spare
    obtain ⟨y, hy⟩ := hne pre r post e h0
    rw [hy]
    exact parse_space t y spare _)
  refine ⟨b, s, h1, h2, ?_⟩
  have := run_errs hrun b s h1
  rw [this]
  simp [init]

/-! ## C62 -/

/-- C62: a read never makes the tokenizer loop for ever without reading again. -/
theorem C62_terminates (t : Transport) (reads : List Read) (o : Out (Bool × State)) (h : Run t init reads o) : o ≠ .hang := by
  have loop : ∀ (fuel : Nat) (eof : Bool) (data : Slice) (out : List (MsgImm × Option Err)), data.cap < 2 ^ 63 → data.len < fuel →
      parseLoop t eof fuel data out ≠ .hang := by
    intro fuel
    induction fuel with
    | zero => intro _ _ _ _ h; omega
    | succ fuel ih =>
      intro eof data out hcap hlt
      unfold parseLoop
      cases hp : parse (some data) (some t) eof with
      | panic => simp
      | hang => exact absurd hp (C09_never_hangs (some data) (some t) eof hcap)
      | ret x =>
        obtain ⟨m, rest, e⟩ := x
        simp only [Out.ret_bind]
        cases rest with
        | none => simp
        | some r =>
          obtain ⟨h1, ⟨pre, hne, h2⟩, _⟩ := parse_rest hcap hp
          have hpos := List.length_pos_iff.mpr hne
          simp only
          split
          · simp
          · refine ih eof r _ ?_ ?_
            · simp only [Slice.cap, h1, h2, List.length_append] at hcap ⊢; omega
            · simp only [Slice.len, h2, List.length_append] at hlt ⊢; omega
  have one : ∀ (s : State) (r : Read), Mem s → r.Fits s → step t s r ≠ .hang := by
    intro s r hm hf
    by_cases h0 : r.data = []
    · unfold step
      simp only [h0, List.length_nil, true_and]
      split
      · simp
      · simp
    · obtain ⟨arr, spare, errs, _, h1, h2⟩ := step_eq (t := t) hm hf h0
      rw [h2]
      have := loop ((s.pending ++ r.data).length + 1) (decide (r.err = .eof)) ⟨s.pending ++ r.data, spare⟩ []
        (by simp only [Slice.cap]; simp only [readBuffer] at h1; omega) (by simp)
      cases hx : parseLoop t (decide (r.err = .eof)) ((s.pending ++ r.data).length + 1) ⟨s.pending ++ r.data, spare⟩ [] with
      | panic => simp
      | hang => exact absurd hx this
      | ret x => simp
  have : ∀ s rs o, Run t s rs o → Mem s → o ≠ .hang := by
    intro s rs o h
    induction h with
    | nil => intro _; simp
    | cons hf hs _ ih => intro hm; exact ih (step_mem hm hf hs).1
    | last hf hs _ => intro hm; rw [← hs]; exact one _ _ hm hf
  exact this init reads o h mem_init

/-- Buffers on which decoding crashes: for the terminated transports, a message without text (so far); for RFC
5425 a length header that is negative or too large, or, at the end of file, a truncated frame whose payload
(so far) is a message without text. -/
def Spec.Crashing (t : Transport) (eof : Bool) (x : Bytes) : Prop :=
  match t with
  | .rfc5425 => ∃ hdr pl l, Framed x hdr pl l ∧
      (¬ HeaderInRange hdr.length l ∨
        (HeaderInRange hdr.length l ∧ (pl.length : Int) < l ∧ eof = true ∧ ∃ fs xs, Frame pl fs xs none))
  | _ => ∃ fs xs, Frame x fs xs none

/-- C62 (partial): the program crashes only if what is pending and read ends with such a buffer. -/
theorem C62_panics_only_partial (t : Transport) (s : State) (r : Read) (reads : List Read)
    (hrun : Run t init reads (.ret (true, s))) (hf : r.Fits s) (h : step t s r = .panic) :
    ∃ pre x, s.pending ++ r.data = pre ++ x ∧ Crashing t (decide (r.err = .eof)) x := by
  have hm := (run_mem hrun mem_init _ _ rfl).1
  have hparse : ∀ (eof : Bool) (data : Slice), data.cap < 2 ^ 63 → parse (some data) (some t) eof = .panic →
      Crashing t eof data.vis := by
    intro eof data hcap hp
    cases t with
    | zeroEnded => exact (C09_terminated_panics_exactly_partial _ (Or.inr rfl) data eof).mp hp
    | lfEnded => exact (C09_terminated_panics_exactly_partial _ (Or.inl rfl) data eof).mp hp
    | rfc5425 => exact (C09_rfc5425_panics_exactly_partial data eof hcap).mp hp
  have loop : ∀ (fuel : Nat) (eof : Bool) (data : Slice) (out : List (MsgImm × Option Err)), data.cap < 2 ^ 63 →
      parseLoop t eof fuel data out = .panic → ∃ pre x, data.vis = pre ++ x ∧ Crashing t eof x := by
    intro fuel
    induction fuel with
    | zero => intro _ _ _ _ h; simp [parseLoop] at h
    | succ fuel ih =>
      intro eof data out hcap h
      unfold parseLoop at h
      cases hp : parse (some data) (some t) eof with
      | panic => exact ⟨[], data.vis, rfl, hparse eof data hcap hp⟩
      | hang => rw [hp] at h; simp at h
      | ret y =>
        obtain ⟨m, rest, e⟩ := y
        rw [hp] at h
        simp only [Out.ret_bind] at h
        cases rest with
        | none => simp at h
        | some r =>
          obtain ⟨h1, ⟨pre, hne, h2⟩, _⟩ := parse_rest hcap hp
          simp only at h
          split at h
          · simp at h
          · obtain ⟨pre', x, g1, g2⟩ := ih eof r _ (by simp only [Slice.cap, h1, h2, List.length_append] at hcap ⊢; omega) h
            exact ⟨pre ++ pre', x, by rw [h2, g1]; simp, g2⟩
  by_cases h0 : r.data = []
  · exfalso
    unfold step at h
    simp only [h0, List.length_nil, true_and] at h
    split at h <;> simp at h
  · obtain ⟨arr, spare, errs, _, h1, h2⟩ := step_eq (t := t) hm hf h0
    rw [h2] at h
    cases hx : parseLoop t (decide (r.err = .eof)) ((s.pending ++ r.data).length + 1) ⟨s.pending ++ r.data, spare⟩ [] with
    | ret x => rw [hx] at h; simp at h
    | hang => rw [hx] at h; simp at h
    | panic =>
      exact loop _ _ _ _ (by simp only [Slice.cap]; simp only [readBuffer] at h1; omega) hx

/-- C62 is violated: a peer crashes the program with one read, for every transport: whatever bytes of that
shape come first. -/
theorem C62_remote_crash_violated (t : Transport) (r : Read) (h0 : r.data.length + r.scratch.length ≤ 65536)
    (hne : r.data ≠ []) (hc : Crashing t (decide (r.err = .eof)) r.data) : Run t init [r] .panic := by
  refine first_read_panics (fits_init h0) hne ?_
  intro spare hsp
  cases t with
  | zeroEnded => exact (C09_terminated_panics_exactly_partial _ (Or.inr rfl) ⟨r.data, spare⟩ _).mpr hc
  | lfEnded => exact (C09_terminated_panics_exactly_partial _ (Or.inl rfl) ⟨r.data, spare⟩ _).mpr hc
  | rfc5425 =>
    refine (C09_rfc5425_panics_exactly_partial ⟨r.data, spare⟩ _ ?_).mpr hc
    simp only [Slice.cap]; simp only [readBuffer] at hsp; omega

example : Crashing .rfc5425 false b!"-1 <0>1 - - - - - - hello" :=
  ⟨b!"-1", b!"<0>1 - - - - - - hello", -1, by unfold Framed; decide +kernel, Or.inl (by unfold HeaderInRange; omega)⟩
example : Crashing .rfc5425 true b!"99 <0>1 - - - - - -" → False := by
  rintro ⟨hdr, pl, l, ⟨h, _⟩, _⟩; revert h; decide
example : Crashing .rfc5425 true b!"99 <0>1 - - - - - [a b=\"c\"]" :=
  ⟨b!"99", b!"<0>1 - - - - - [a b=\"c\"]", 99, by unfold Framed; decide +kernel, Or.inr ⟨by unfold HeaderInRange; decide, by decide, rfl,
    [b!"<0>1", b!"-", b!"-", b!"-", b!"-", b!"-"], [b!"[a b=\"c\"]"],
    Frame.sd (fs := [b!"<0>1", b!"-", b!"-", b!"-", b!"-", b!"-"]) rfl (by decide) (.stop (.last (p := b!"[a b=\"c") (by decide)))
      ⟨b!"[a", b!"b=\"c\"]", by decide, by decide, by decide⟩⟩⟩
example : Crashing .lfEnded false b!"<0>1 - - - - - -" :=
  ⟨_, _, Frame.dash (fs := [b!"<0>1", b!"-", b!"-", b!"-", b!"-", b!"-"]) rfl (by decide)⟩

end Syslog5424
