import Verif.Spec.Lines
import Verif.Props.Decoder
import Verif.Props.Diagnosis
/-! # Property C89: what a receiver of terminated messages delivers from any bytes -/
namespace Syslog5424
open Spec Transport Tok

theorem term_of {t : Transport} {c : UInt8} (h : terminator t = some c) : t.term = some c := by
  cases t <;> first | exact h | cases h

theorem term_either {t : Transport} {c : UInt8} (h : terminator t = some c) : t = .lfEnded ∨ t = .zeroEnded := by
  cases t with
  | lfEnded => exact Or.inl rfl
  | zeroEnded => exact Or.inr rfl
  | rfc5425 => cases h

/-- `Parse` on bytes that are ready. -/
theorem parse_ready {t : Transport} {c : UInt8} (ht : terminator t = some c) (buf : Slice) (eof : Bool) {p text suffix : Bytes}
    (h : LineReady c buf.vis p text suffix) :
    ∃ m, parse (some buf) (some t) eof = .ret (m, some ⟨suffix, buf.spare⟩, none) ∧ m.buffer.vis = p ∧ m.textOf = .ret text := by
  obtain ⟨fs, xs, y, hF, hc, hb⟩ := h
  obtain ⟨idx, txt, hL⟩ := hF.layout
  obtain ⟨pre, h1, h2, h3⟩ := parse_term_frame (term_of ht) buf eof (q := suffix) (by simpa using hL) hc
  refine ⟨_, h3, ?_, ?_⟩
  · rw [hb] at h1
    simp only
    have : p ++ ([c] ++ suffix) = (pre ++ y :: text) ++ ([c] ++ suffix) := by simpa using h1
    exact (List.append_cancel_right this).symm
  · obtain ⟨pri, ts, host, app, pid, mid, _, hr⟩ := h2.readsAs
    simpa using hr.text

theorem Spec.LineReady.unique {c : UInt8} {b p text suffix p' text' suffix' : Bytes} (h : LineReady c b p text suffix)
    (h' : LineReady c b p' text' suffix') (hc : c = 10 ∨ c = 0) : p = p' ∧ text = text' ∧ suffix = suffix' := by
  obtain ⟨t, ht⟩ : ∃ t, terminator t = some c := by
    rcases hc with rfl | rfl
    · exact ⟨.lfEnded, rfl⟩
    · exact ⟨.zeroEnded, rfl⟩
  obtain ⟨m, h1, h2, h3⟩ := parse_ready ht ⟨b, []⟩ false h
  obtain ⟨m', h1', h2', h3'⟩ := parse_ready ht ⟨b, []⟩ false h'
  rw [h1] at h1'
  simp only [Out.ret.injEq, Prod.mk.injEq, Option.some.injEq, Slice.mk.injEq, and_true] at h1'
  obtain ⟨rfl, rfl⟩ := h1'
  rw [h3] at h3'
  simp only [Out.ret.injEq] at h3'
  exact ⟨h2.symm.trans h2', h3', rfl⟩

theorem term_or {t : Transport} {c : UInt8} (h : terminator t = some c) : c = 10 ∨ c = 0 := by
  cases t <;> simp [terminator] at h <;> simp [h]

/-- `Parse` on the bytes of a terminated stream, in terms of the reference. -/
theorem parse_line_exact {t : Transport} {c : UInt8} (ht : terminator t = some c) (buf : Slice) (eof : Bool) :
    (parse (some buf) (some t) eof = .panic ↔ ∃ fs xs, Frame buf.vis fs xs none) ∧
    (∀ m r e, parse (some buf) (some t) eof = .ret (m, some r, e) →
      r.spare = buf.spare ∧ ∃ p text, LineReady c buf.vis p text r.vis ∧ LineIs p text m e) ∧
    (∀ m e, parse (some buf) (some t) eof = .ret (m, none, e) → ¬ ∃ p text suffix, LineReady c buf.vis p text suffix) := by
  refine ⟨C09_terminated_panics_exactly_partial t (term_either ht) buf eof, ?_, ?_⟩
  · intro m r e h
    rcases parse_term_cases (term_of ht) buf eof with ⟨_, h'⟩ | ⟨_, h'⟩ | ⟨_, _, _, _, h'⟩ | ⟨_, _, _, _, _, _, _, h'⟩ |
      ⟨_, _, _, _, _, _, _, _, _, _, h'⟩ | ⟨fs, xs, idx, pre, y, p, q, hL, hcp, hb, hV, h'⟩
    · rw [h'] at h; simp at h
    · rw [h'] at h; simp at h
    · rw [h'] at h; simp at h
    · rw [h'] at h; simp at h
    · rw [h'] at h; simp at h
    · rw [h'] at h
      simp only [Out.ret.injEq, Prod.mk.injEq, Option.some.injEq] at h
      obtain ⟨rfl, rfl, rfl⟩ := h
      refine ⟨rfl, pre ++ y :: p, p, ⟨fs, xs, y, by simpa using hL.frame, hcp, by rw [hb]; simp⟩, ?_⟩
      have hv := hV p (c :: q ++ buf.spare)
      obtain ⟨sd, hs, hsd⟩ := hv.string
      have hraw := hv.raw
      obtain ⟨pri, ts, host, app, pid, mid, rfl, hread⟩ := hv.readsAs
      refine ⟨pri, ts, host, app, pid, mid, sd, y, hraw, ?_, rfl, rfl, by simpa using hread⟩
      have : pre ++ y :: p = headerText [pri, ts, host, app, pid, mid] ++ sd ++ y :: p := hs
      rw [this]; simp
  · rintro m e h ⟨p, text, suffix, hr⟩
    obtain ⟨m', h', _⟩ := parse_ready ht buf eof hr
    rw [h'] at h
    simp at h

theorem frame_ne_nil {fs xs : List Bytes} {o : Option Bytes} : ¬ Frame [] fs xs o := by
  intro h
  generalize hb : ([] : Bytes) = b at h
  have h6 : fs.length = 6 := by cases h <;> assumption
  have := headerText_pos h6
  have hb' := congrArg List.length hb
  cases h <;> simp only [List.length_append, List.length_nil] at hb' <;> omega

theorem lineReady_ne_nil {c : UInt8} {p text suffix : Bytes} : ¬ LineReady c [] p text suffix :=
  fun ⟨_, _, _, h, _⟩ => frame_ne_nil h

theorem crashesOnLines_nil {c : UInt8} : ¬ CrashesOnLines c [] := by
  intro h
  generalize hb : ([] : Bytes) = b at h
  cases h with
  | now h => subst hb; exact frame_ne_nil h
  | later h => subst hb; exact lineReady_ne_nil h

theorem crashesOnLines_later {c : UInt8} {t : Transport} (ht : terminator t = some c) {b p text suffix : Bytes}
    (h : LineReady c b p text suffix) : CrashesOnLines c b ↔ CrashesOnLines c suffix := by
  refine ⟨fun hc => ?_, fun hc => .later h hc⟩
  cases hc with
  | now h' =>
    obtain ⟨m, h1, _⟩ := parse_ready ht ⟨b, []⟩ false h
    rw [(C09_terminated_panics_exactly_partial t (term_either ht) ⟨b, []⟩ false).mpr ⟨_, _, h'⟩] at h1
    cases h1
  | later h1 h2 => rw [(h.unique h1 (term_or ht)).2.2]; exact h2

/-- What was delivered for a line: a call of `Parse` on bytes that begin with this line gave it. -/
def LineTaken (t : Transport) (c : UInt8) (p text : Bytes) (m : MsgImm) (e : Option Err) : Prop :=
  LineIs p text m e ∧ ∃ spare suffix eof, parse (some ⟨p ++ [c] ++ suffix, spare⟩) (some t) eof = .ret (m, some ⟨suffix, spare⟩, e)

theorem parseLoop_lines {t : Transport} {c : UInt8} (ht : terminator t = some c) (eof : Bool) (fuel : Nat) :
    ∀ (data : Slice) (out0 : List (MsgImm × Option Err)), data.cap < 2 ^ 63 → data.len < fuel →
    (parseLoop t eof fuel data out0 = .panic ↔ CrashesOnLines c data.vis) ∧
    ∀ data' out, parseLoop t eof fuel data out0 = .ret (data', out) →
      ∃ ps ds, DecodesLines c data.vis ps data'.vis ∧ out = out0 ++ ds ∧ Each (fun p d => LineTaken t c p.1 p.2 d.1 d.2) ps ds := by
  induction fuel with
  | zero => intro _ _ _ h; omega
  | succ fuel ih =>
    intro data out0 hcap hfuel
    obtain ⟨hA, hB, hC⟩ := parse_line_exact ht data eof
    unfold parseLoop
    cases hp : parse (some data) (some t) eof with
    | hang => exact absurd hp (C09_never_hangs (some data) (some t) eof hcap)
    | panic =>
      refine ⟨⟨fun _ => ?_, fun _ => rfl⟩, fun _ _ h => by cases h⟩
      obtain ⟨fs, xs, h⟩ := hA.mp hp
      exact .now h
    | ret x =>
      obtain ⟨m, rest, e⟩ := x
      have hnp : ¬ ∃ fs xs, Frame data.vis fs xs none := by
        intro h
        rw [hA.mpr h] at hp; cases hp
      simp only [Out.ret_bind]
      cases rest with
      | none =>
        have hno := hC m e hp
        refine ⟨⟨fun h => (by cases h), fun h => ?_⟩, ?_⟩
        · exfalso
          cases h with
          | now h => exact hnp ⟨_, _, h⟩
          | later h _ => exact hno ⟨_, _, _, h⟩
        · intro data' out h
          simp only [Out.pure_eq, Out.ret.injEq, Prod.mk.injEq] at h
          obtain ⟨rfl, rfl⟩ := h
          exact ⟨[], [], .stop hno, by simp, .nil⟩
      | some r =>
        obtain ⟨hsp, p, text, hr, hcv⟩ := hB m r e hp
        have hcv : LineTaken t c p text m e := by
          refine ⟨hcv, data.spare, r.vis, eof, ?_⟩
          obtain ⟨_, _, _, _, _, hb⟩ := hr
          rw [← hb, hp, ← hsp]
        have hl := congrArg List.length (show data.vis = p ++ [c] ++ r.vis by obtain ⟨_, _, _, _, _, h⟩ := hr; exact h)
        simp only [List.length_append, List.length_singleton] at hl
        simp only
        by_cases h0 : r.len = 0
        · rw [if_pos h0]
          have hv : r.vis = [] := List.length_eq_zero_iff.mp h0
          refine ⟨⟨fun h => (by cases h), fun h => ?_⟩, ?_⟩
          · exfalso
            rw [crashesOnLines_later ht hr, hv] at h
            exact crashesOnLines_nil h
          · intro data' out h
            simp only [Out.pure_eq, Out.ret.injEq, Prod.mk.injEq] at h
            obtain ⟨rfl, rfl⟩ := h
            refine ⟨[(p, text)], [(m, e)], .take hr (.stop ?_), rfl, .cons hcv .nil⟩
            rintro ⟨_, _, _, h⟩
            rw [hv] at h
            exact lineReady_ne_nil h
        · rw [if_neg h0]
          have hc : r.cap < 2 ^ 63 := by
            simp only [Slice.cap, hsp] at hcap ⊢; omega
          obtain ⟨i1, i2⟩ := ih r (out0 ++ [(m, e)]) hc (by simp only [Slice.len] at hfuel ⊢; omega)
          refine ⟨i1.trans (crashesOnLines_later ht hr).symm, ?_⟩
          intro data' out h
          obtain ⟨ps, ds, g1, g2, g3⟩ := i2 data' out h
          exact ⟨(p, text) :: ps, (m, e) :: ds, .take hr g1, by rw [g2]; simp, .cons hcv g3⟩

/-- One read of a terminated stream: it crashes on certain bytes and else decodes. -/
theorem step_lines {t : Transport} {c : UInt8} (ht : terminator t = some c) {s : State} {r : Read} (hm : Mem s) (hf : r.Fits s) :
    (step t s r = .panic ↔ r.data ≠ [] ∧ CrashesOnLines c (s.pending ++ r.data)) ∧
    ∀ b s', step t s r = .ret (b, s') → (r.data = [] → s'.pending = s.pending ∧ s'.out = s.out) ∧
      (r.data ≠ [] → ∃ ps ds, DecodesLines c (s.pending ++ r.data) ps s'.pending ∧ s'.out = s.out ++ ds ∧
        Each (fun p d => LineTaken t c p.1 p.2 d.msg d.err) ps ds) := by
  by_cases h0 : r.data = []
  · have hret : ∃ b s', step t s r = .ret (b, s') ∧ s'.out = s.out := by
      unfold step
      simp only [h0, List.length_nil, true_and, if_true]
      split
      · exact ⟨_, _, rfl, rfl⟩
      · exact ⟨_, _, rfl, rfl⟩
    obtain ⟨b, s', hs, ho⟩ := hret
    refine ⟨⟨fun h => (by rw [hs] at h; cases h), fun h => absurd h0 h.1⟩, ?_⟩
    intro b' s'' hs'
    rw [hs] at hs'
    simp only [Out.ret.injEq, Prod.mk.injEq] at hs'
    obtain ⟨rfl, rfl⟩ := hs'
    refine ⟨fun _ => ⟨?_, ho⟩, fun h => absurd h0 h⟩
    obtain ⟨pieces, ds, h1, h2, h3⟩ := step_pieces hm hf hs
    have hd : ds = [] := by
      rw [ho] at h2
      exact List.append_cancel_left (h2.symm.trans (List.append_nil _).symm)
    subst hd
    cases h3
    simpa [h0] using h1.symm
  · obtain ⟨arr, spare, errs, harr, hl, hst⟩ := step_eq (t := t) hm hf h0
    have hcap : (Slice.mk (s.pending ++ r.data) spare).cap < 2 ^ 63 := by
      simp only [Slice.cap]
      simp only [readBuffer] at hl
      omega
    obtain ⟨hA, hB⟩ := parseLoop_lines ht (decide (r.err = .eof)) ((s.pending ++ r.data).length + 1) ⟨s.pending ++ r.data, spare⟩ []
      hcap (by simp only [Slice.len]; omega)
    cases hp : parseLoop t (decide (r.err = .eof)) ((s.pending ++ r.data).length + 1) ⟨s.pending ++ r.data, spare⟩ [] with
    | panic =>
      rw [hp] at hst
      refine ⟨⟨fun _ => ⟨h0, hA.mp hp⟩, fun _ => hst⟩, fun b s' h => ?_⟩
      rw [hst] at h; cases h
    | hang =>
      rw [hp] at hst
      refine ⟨⟨fun h => (by rw [hst] at h; cases h), fun h => ?_⟩, fun b s' h => ?_⟩
      · rw [hA.mpr h.2] at hp; cases hp
      · rw [hst] at h; cases h
    | ret x =>
      obtain ⟨data', ds⟩ := x
      rw [hp] at hst
      simp only [Out.ret_bind, Out.pure_eq] at hst
      refine ⟨⟨fun h => (by rw [hst] at h; cases h), fun h => ?_⟩, ?_⟩
      · rw [hA.mpr h.2] at hp; cases hp
      intro b s' hs
      refine ⟨fun h => absurd h h0, fun _ => ?_⟩
      obtain ⟨ps, ds', g1, g2, g3⟩ := hB _ _ hp
      rw [List.nil_append] at g2
      subst g2
      obtain ⟨pieces, _, h1, _, _⟩ := step_pieces hm hf hs
      obtain ⟨pieces', _, h1', _, _⟩ := parseLoop_pieces _ hcap hp
      have hm' := (step_mem hm hf hs).1
      rw [hst] at hs
      simp only [Out.ret.injEq, Prod.mk.injEq] at hs
      have hdone : s'.done = data'.len := by rw [← hs.2]; unfold Tok.advance; simp only; split <;> rfl
      have hout : s'.out = s.out ++ ds.map fun d => ⟨s.old.length, d.1, d.2⟩ := by
        rw [← hs.2]; unfold Tok.advance; simp only; split <;> rfl
      have hpend : s'.pending = data'.vis := by
        have hl' : s'.pending.length = data'.vis.length := by rw [hm'.pending_length, hdone]; rfl
        simp only at h1'
        rw [h1'] at h1
        exact (List.append_inj' h1 hl'.symm).2.symm
      refine ⟨ps, _, by rw [hpend]; exact g1, hout, Spec.Each.map g3⟩

/-- C89: what a decoding attempt gives is determined by the bytes. -/
theorem decodesLines_functional {c : UInt8} (hc : c = 10 ∨ c = 0) {b rest rest' : Bytes} {ps ps' : List (Bytes × Bytes)}
    (h : DecodesLines c b ps rest) (h' : DecodesLines c b ps' rest') : ps = ps' ∧ rest = rest' := by
  induction h generalizing ps' with
  | stop h =>
    cases h' with
    | stop => exact ⟨rfl, rfl⟩
    | take h1 => exact absurd ⟨_, _, _, h1⟩ h
  | take h _ ih =>
    cases h' with
    | stop h1 => exact absurd ⟨_, _, _, h⟩ h1
    | take h1 h2 =>
      obtain ⟨rfl, rfl, rfl⟩ := h.unique h1 hc
      obtain ⟨rfl, rfl⟩ := ih h2
      exact ⟨rfl, rfl⟩

/-- **C89.** What is delivered and what waits are determined by the bytes of the reads. -/
theorem C89_functional {c : UInt8} (hc : c = 10 ∨ c = 0) {kept rest rest' : Bytes} {datas : List Bytes}
    {ps ps' : List (Bytes × Bytes)} (h : DecodesReads c kept datas ps rest) (h' : DecodesReads c kept datas ps' rest') :
    ps = ps' ∧ rest = rest' := by
  induction h generalizing ps' with
  | nil => cases h'; exact ⟨rfl, rfl⟩
  | empty _ ih =>
    cases h' with
    | empty h' => exact ih h'
    | read h => exact absurd rfl h
  | read h _ h2 _ ih =>
    cases h' with
    | empty => exact absurd rfl h
    | read h' _ h2' h3' =>
      obtain ⟨rfl, rfl⟩ := decodesLines_functional hc h2 h2'
      obtain ⟨rfl, rfl⟩ := ih h3'
      exact ⟨rfl, rfl⟩

theorem Spec.DecodesReads.safe_prefix {c : UInt8} (hc : c = 10 ∨ c = 0) {kept rest mid d : Bytes} {datas more : List Bytes}
    {ps qs : List (Bytes × Bytes)} (h : DecodesReads c kept (datas ++ d :: more) ps rest) (h' : DecodesReads c kept datas qs mid)
    (hd : d ≠ []) : ¬ CrashesOnLines c (mid ++ d) := by
  induction h' generalizing ps with
  | nil =>
    cases h with
    | empty => exact absurd rfl hd
    | read _ h => exact h
  | empty _ ih =>
    cases h with
    | empty h => exact ih h
    | read h => exact absurd rfl h
  | read h1 _ h2 _ ih =>
    cases h with
    | empty => exact absurd rfl h1
    | read _ _ g2 g3 =>
      obtain ⟨rfl, rfl⟩ := decodesLines_functional hc h2 g2
      exact ih g3

theorem run_lines {t : Transport} {c : UInt8} (ht : terminator t = some c) {s : State} {rs : List Read} {o : Out (Bool × State)}
    (h : Run t s rs o) : Mem s →
    (∀ b s', o = .ret (b, s') → ∃ ps ds, DecodesReads c s.pending (rs.map Read.data) ps s'.pending ∧ s'.out = s.out ++ ds ∧
      Each (fun p d => LineTaken t c p.1 p.2 d.msg d.err) ps ds) ∧
    (o = .panic → ∃ before last ps mid, rs.map Read.data = before ++ [last] ∧ DecodesReads c s.pending before ps mid ∧
      last ≠ [] ∧ CrashesOnLines c (mid ++ last)) := by
  induction h with
  | @nil s =>
    intro _
    refine ⟨?_, fun h => (by cases h)⟩
    intro b s' e
    simp only [Out.ret.injEq, Prod.mk.injEq] at e
    obtain ⟨rfl, rfl⟩ := e
    exact ⟨[], [], .nil, by simp, .nil⟩
  | @cons s s1 r rs o hf hs _ ih =>
    intro hm
    obtain ⟨hA, hB⟩ := step_lines ht hm hf
    have hm1 := (step_mem hm hf hs).1
    obtain ⟨i1, i2⟩ := ih hm1
    obtain ⟨hB1, hB2⟩ := hB _ _ hs
    by_cases h0 : r.data = []
    · obtain ⟨e1, e2⟩ := hB1 h0
      rw [e1] at i1 i2
      rw [e2] at i1
      refine ⟨fun b s' e => ?_, fun e => ?_⟩
      · obtain ⟨ps, ds, h1, h2, h3⟩ := i1 b s' e
        exact ⟨ps, ds, by rw [List.map_cons, h0]; exact .empty h1, h2, h3⟩
      · obtain ⟨before, last, ps, mid, h1, h2, h3⟩ := i2 e
        exact ⟨[] :: before, last, ps, mid, by rw [List.map_cons, h0, h1]; rfl, .empty h2, h3⟩
    · obtain ⟨qs, ds, g1, g2, g3⟩ := hB2 h0
      have hn : ¬ CrashesOnLines c (s.pending ++ r.data) := by
        intro hc
        rw [hA.mpr ⟨h0, hc⟩] at hs; cases hs
      refine ⟨fun b s' e => ?_, fun e => ?_⟩
      · obtain ⟨ps, ds', h1, h2, h3⟩ := i1 b s' e
        exact ⟨qs ++ ps, ds ++ ds', .read h0 hn g1 h1, by rw [h2, g2]; simp, g3.append h3⟩
      · obtain ⟨before, last, ps, mid, h1, h2, h3⟩ := i2 e
        exact ⟨r.data :: before, last, qs ++ ps, mid, by rw [List.map_cons, h1]; rfl, .read h0 hn g1 h2, h3⟩
  | @last s r o hf hs hn' =>
    intro hm
    obtain ⟨hA, hB⟩ := step_lines ht hm hf
    refine ⟨fun b s' e => ?_, fun e => ?_⟩
    · rw [e] at hs
      obtain ⟨hB1, hB2⟩ := hB _ _ hs
      by_cases h0 : r.data = []
      · obtain ⟨e1, e2⟩ := hB1 h0
        exact ⟨[], [], by rw [List.map_cons, h0, e1]; exact .empty .nil, by rw [e2]; simp, .nil⟩
      · obtain ⟨qs, ds, g1, g2, g3⟩ := hB2 h0
        have hn : ¬ CrashesOnLines c (s.pending ++ r.data) := by
          intro hc
          rw [hA.mpr ⟨h0, hc⟩] at hs; cases hs
        have := DecodesReads.read h0 hn g1 .nil
        rw [List.append_nil] at this
        exact ⟨qs, ds, this, g2, g3⟩
    · rw [e] at hs
      exact ⟨[], r.data, [], s.pending, rfl, .nil, hA.mp hs⟩

theorem each_taken {t : Transport} {c : UInt8} {ps : List (Bytes × Bytes)} {ds : List Delivered}
    (h : Each (fun p (d : Delivered) => LineTaken t c p.1 p.2 d.msg d.err) ps ds) : Each (fun p d => LineIs p.1 p.2 d.msg d.err) ps ds := by
  induction h with
  | nil => exact .nil
  | cons h _ ih => exact .cons h.1 ih

/-- **C89.** Whatever bytes arrive over an LF or NUL terminated connection: the receiver delivers, in order, what the
reference decoder takes from the reads, one pair without error for each, and keeps what the decoder keeps. -/
theorem C89_decodes (t : Transport) (c : UInt8) (ht : terminator t = some c) (reads : List Read) (b : Bool) (s : State)
    (h : Run t init reads (.ret (b, s))) :
    ∃ ps, DecodesReads c [] (reads.map Read.data) ps s.pending ∧ Each (fun p d => LineIs p.1 p.2 d.msg d.err) ps s.out := by
  obtain ⟨ps, ds, h1, h2, h3⟩ := (run_lines ht h mem_init).1 b s rfl
  rw [pending_init] at h1
  rw [show init.out = [] from rfl, List.nil_append] at h2
  exact ⟨ps, h1, by rw [h2]; exact each_taken h3⟩

/-- **C89.** It crashes exactly when, after some read, there is behind the messages that are delivered one that stops right
behind its structured data. -/
theorem C89_crashes_exactly (t : Transport) (c : UInt8) (ht : terminator t = some c) (reads : List Read) (o : Out (Bool × State))
    (h : Run t init reads o) :
    o = .panic ↔ ∃ before last after ps mid, reads.map Read.data = before ++ last :: after ∧ DecodesReads c [] before ps mid ∧
      last ≠ [] ∧ CrashesOnLines c (mid ++ last) := by
  obtain ⟨h1, h2⟩ := run_lines ht h mem_init
  rw [pending_init] at h1 h2
  constructor
  · intro e
    obtain ⟨before, last, ps, mid, g⟩ := h2 e
    exact ⟨before, last, [], ps, mid, g⟩
  · rintro ⟨before, last, after, ps, mid, g1, g2, g3, g4⟩
    cases o with
    | panic => rfl
    | hang => exact absurd rfl (C62_terminates t reads _ h)
    | ret x =>
      obtain ⟨ps', _, k1, _⟩ := h1 x.1 x.2 rfl
      rw [g1] at k1
      exact absurd g4 (k1.safe_prefix (term_or ht) g2 g3)

theorem lineIs_same {p text : Bytes} {m m' : MsgImm} {e e' : Option Err} (h : LineIs p text m e) (h' : LineIs p text m' e') :
    e = e' ∧ SameToUser m m' := by
  obtain ⟨pri, ts, host, app, pid, mid, sd, y, hr, hp, he, hs, ha⟩ := h
  obtain ⟨pri', ts', host', app', pid', mid', sd', y', hr', hp', he', hs', ha'⟩ := h'
  refine ⟨by rw [he, he'], by rw [hs, hs'], fun _ => ?_⟩
  rw [hp, List.append_assoc, List.append_assoc, List.append_assoc, List.append_assoc] at hp'
  have := (headerText_inj (by simp) hr hr' hp').1
  simp only [List.cons.injEq, and_true] at this
  obtain ⟨rfl, rfl, rfl, rfl, rfl, rfl⟩ := this
  exact readsAs_same ha ha'

/-- **C89.** Two receivers of the same reads (whatever errors come with them) deliver the same and wait with the same
bytes, and both crash or none does. -/
theorem C89_same_reads (t : Transport) (c : UInt8) (ht : terminator t = some c) (reads reads' : List Read)
    (o o' : Out (Bool × State)) (h : Run t init reads o) (h' : Run t init reads' o')
    (he : (reads.map Read.data) = (reads'.map Read.data)) :
    (o = .panic ↔ o' = .panic) ∧
    ∀ b s b' s', o = .ret (b, s) → o' = .ret (b', s') → s.pending = s'.pending ∧
      Each (fun d d' => d.err = d'.err ∧ SameToUser d.msg d'.msg) s.out s'.out := by
  constructor
  · rw [C89_crashes_exactly t c ht reads o h, C89_crashes_exactly t c ht reads' o' h', he]
  · rintro b s b' s' rfl rfl
    obtain ⟨ps, h1, h2⟩ := C89_decodes t c ht reads b s h
    obtain ⟨ps', h1', h2'⟩ := C89_decodes t c ht reads' b' s' h'
    rw [he] at h1
    obtain ⟨rfl, e⟩ := C89_functional (term_or ht) h1 h1'
    refine ⟨e, ?_⟩
    clear h1 h1' e h h' he
    generalize s.out = out at h2
    generalize s'.out = out' at h2'
    induction h2 generalizing out' with
    | nil => cases h2'; exact .nil
    | cons hx _ ih =>
      cases h2' with
      | cons hx' h2' => exact .cons (lineIs_same hx hx') (ih _ h2')

/-- C89 at the interface: what `Receive` has returned from a connection is what the reference decoder takes first from
its reads. -/
theorem C89_receive (t : Transport) (c : UInt8) (ht : terminator t = some c) (lenQueue : Nat) (es : List Recv.Event)
    (s : Recv.State) (h : Recv.run t lenQueue Recv.init es = some s) (hc : s.crashed = false) (i : Nat) (k : Recv.Conn)
    (hi : s.conns[i]? = some k) :
    ∃ ps rest, DecodesReads c [] ((Spec.readsOf i es).map Read.data) ps rest ∧
      Each (fun p d => LineIs p.1 p.2 d.msg d.err) (ps.take (Spec.ofConn i s.got).length) (Spec.ofConn i s.got) := by
  obtain ⟨b, tok, h1, h2⟩ := C44_order t lenQueue es s h hc i k hi
  obtain ⟨ps, h3, h4⟩ := C89_decodes t c ht _ b tok h1
  rw [← h2, List.append_assoc] at h4
  refine ⟨ps, _, h3, ?_⟩
  have split : ∀ (xs ys : List Delivered) (ps : List (Bytes × Bytes)),
      Each (fun p (d : Delivered) => LineIs p.1 p.2 d.msg d.err) ps (xs ++ ys) →
      Each (fun p (d : Delivered) => LineIs p.1 p.2 d.msg d.err) (ps.take xs.length) xs := by
    intro xs
    induction xs with
    | nil => intro ys ps _; rw [List.length_nil, List.take_zero]; exact .nil
    | cons x xs ih =>
      intro ys ps h
      rw [List.cons_append] at h
      cases h with
      | cons h1 h2 =>
        rw [List.length_cons, List.take_succ_cons]
        exact .cons h1 (ih ys _ h2)
  exact split _ _ _ h4

/-! ## without closing bracket, only the bytes matter -/

theorem Spec.Quiet.more {q x : Bytes} (h : Quiet q) (hx : (93 : UInt8) ∉ x) : Quiet (q ++ x) := by
  induction h with
  | last h1 h2 => exact .last (by simp [h1]) (by simp [h2, hx])
  | esc h1 _ ih => rw [List.append_assoc]; exact .esc h1 ih

theorem Spec.Items.more_quiet {tail x : Bytes} {xs : List Bytes} {q : Bytes} (h : Items tail xs (some q)) (hx : (93 : UInt8) ∉ x) :
    Items (tail ++ x) xs (some (q ++ x)) := by
  generalize ho : some q = o at h
  induction h with
  | stop => cases ho
  | quiet h => cases ho; exact .quiet (h.more hx)
  | more h1 _ ih => rw [List.append_assoc]; exact .more h1 (ih ho)

/-- What follows a message does not change it, unless it has a closing bracket. -/
theorem Spec.LineReady.more {c : UInt8} {b p text suffix x : Bytes} (h : LineReady c b p text suffix) (hx : (93 : UInt8) ∉ x) :
    LineReady c (b ++ x) p text (suffix ++ x) := by
  obtain ⟨fs, xs, y, hF, hc, hb⟩ := h
  refine ⟨fs, xs, y, ?_, hc, by rw [hb]; simp⟩
  generalize ho : some (y :: (text ++ [c] ++ suffix)) = o at hF
  cases hF with
  | dash => cases ho
  | @dashText _ tx h6 hr =>
    simp only [Option.some.injEq] at ho
    have := Frame.dashText (fs := fs) (t := tx ++ x) h6 hr
    rw [← List.append_assoc, ← List.append_assoc] at this
    have e : (y :: (text ++ [c] ++ (suffix ++ x))) = (y :: (text ++ [c] ++ suffix)) ++ x := by simp
    rw [e, ho]
    exact this
  | sd h6 hr hi hs =>
    subst ho
    obtain ⟨a, b, e1, e2, e3⟩ := hs
    have := Frame.sd h6 hr (hi.more_quiet hx) ⟨a, b ++ x, by rw [e1]; simp, e2, e3⟩
    rw [← List.append_assoc] at this
    simpa using this

theorem Spec.DecodesLines.more {c : UInt8} {R P Q x : Bytes} {ps qs : List (Bytes × Bytes)} (h : DecodesLines c R ps P)
    (hx : (93 : UInt8) ∉ x) (h' : DecodesLines c (P ++ x) qs Q) : DecodesLines c (R ++ x) (ps ++ qs) Q := by
  induction h with
  | stop => exact h'
  | take h _ ih => exact .take (h.more hx) (ih h')

theorem Spec.DecodesReads.all {c : UInt8} {kept rest : Bytes} {datas : List Bytes} {ps : List (Bytes × Bytes)}
    (h : DecodesReads c kept datas ps rest) : (93 : UInt8) ∉ datas.flatten →
    ∀ {R : Bytes} {qs : List (Bytes × Bytes)}, DecodesLines c R qs kept → DecodesLines c (R ++ datas.flatten) (qs ++ ps) rest := by
  induction h with
  | nil => intro _ R qs h; simpa using h
  | empty _ ih =>
    intro hn R qs h
    rw [List.flatten_cons, List.nil_append] at hn ⊢
    exact ih hn h
  | read _ _ h2 _ ih =>
    intro hn R qs h
    rw [List.flatten_cons] at hn ⊢
    rw [List.mem_append, not_or] at hn
    have := ih hn.2 (h.more hn.1 h2)
    rwa [List.append_assoc, List.append_assoc] at this

theorem decodesLines_nil {c : UInt8} : DecodesLines c [] [] [] :=
  .stop fun ⟨_, _, _, h⟩ => lineReady_ne_nil h

theorem flatten_data (reads : List Read) : (reads.map Read.data).flatten = arrived reads := by
  rw [arrived, List.flatMap_def]

/-- **C89.** As long as no closing bracket arrives, what is delivered depends on the bytes only, not on how they are cut into
reads: it is what the reference decoder takes from them at once. -/
theorem C89_without_brackets (t : Transport) (c : UInt8) (ht : terminator t = some c) (reads : List Read) (b : Bool) (s : State)
    (h : Run t init reads (.ret (b, s))) (hn : (93 : UInt8) ∉ arrived reads) :
    ∃ ps, DecodesLines c (arrived reads) ps s.pending ∧ Each (fun p d => LineIs p.1 p.2 d.msg d.err) ps s.out := by
  obtain ⟨ps, h1, h2⟩ := C89_decodes t c ht reads b s h
  refine ⟨ps, ?_, h2⟩
  have := h1.all (by rw [flatten_data]; exact hn) decodesLines_nil
  rw [flatten_data] at this
  simpa using this

theorem each_same {ps : List (Bytes × Bytes)} {out out' : List Delivered}
    (h : Each (fun p (d : Delivered) => LineIs p.1 p.2 d.msg d.err) ps out)
    (h' : Each (fun p (d : Delivered) => LineIs p.1 p.2 d.msg d.err) ps out') :
    Each (fun d d' => d.err = d'.err ∧ SameToUser d.msg d'.msg) out out' := by
  induction h generalizing out' with
  | nil => cases h'; exact .nil
  | cons hx _ ih =>
    cases h' with
    | cons hx' h' => exact .cons (lineIs_same hx hx') (ih h')

/-- **C89.** Two receivers of the same bytes without closing bracket, in whatever reads, deliver the same and wait with the
same bytes (if none of them crashes). -/
theorem C89_segmentation (t : Transport) (c : UInt8) (ht : terminator t = some c) (reads reads' : List Read) (b b' : Bool)
    (s s' : State) (h : Run t init reads (.ret (b, s))) (h' : Run t init reads' (.ret (b', s')))
    (he : arrived reads = arrived reads') (hn : (93 : UInt8) ∉ arrived reads) :
    s.pending = s'.pending ∧ Each (fun d d' => d.err = d'.err ∧ SameToUser d.msg d'.msg) s.out s'.out := by
  obtain ⟨ps, h1, h2⟩ := C89_without_brackets t c ht reads b s h hn
  obtain ⟨ps', h1', h2'⟩ := C89_without_brackets t c ht reads' b' s' h' (by rw [← he]; exact hn)
  rw [he] at h1
  obtain ⟨rfl, e⟩ := decodesLines_functional (term_or ht) h1 h1'
  exact ⟨e, each_same h2 h2'⟩

/-- Examples for C89: two messages in one read are two; the same with structured data are one message; and bytes that crash
the receiver. -/
example : DecodesReads 10 [] [b!"<0>1 - - - - - - a\n<0>1 - - -", b!" - - - b\n<"]
    [(b!"<0>1 - - - - - - a", b!"a"), (b!"<0>1 - - - - - - b", b!"b")] b!"<" := by
  have hraw : ∀ f ∈ [b!"<0>1", b!"-", b!"-", b!"-", b!"-", b!"-"], RawField f := by decide
  have h1 : LineReady 10 b!"<0>1 - - - - - - a\n<0>1 - - -" b!"<0>1 - - - - - - a" b!"a" b!"<0>1 - - -" :=
    ⟨[b!"<0>1", b!"-", b!"-", b!"-", b!"-", b!"-"], [], 32, Frame.dashText (t := b!"a\n<0>1 - - -") rfl hraw, by decide, by decide⟩
  have h2 : LineReady 10 b!"<0>1 - - - - - - b\n<" b!"<0>1 - - - - - - b" b!"b" b!"<" :=
    ⟨[b!"<0>1", b!"-", b!"-", b!"-", b!"-", b!"-"], [], 32, Frame.dashText (t := b!"b\n<") rfl hraw, by decide, by decide⟩
  have key : ∀ b : Bytes, (parse (some ⟨b, []⟩) (some .lfEnded) false matches .ret (_, none, _)) →
      ¬ ∃ p text suffix, LineReady 10 b p text suffix := by
    intro b hb ⟨p, text, suffix, h⟩
    obtain ⟨m, e, _⟩ := parse_ready (t := .lfEnded) rfl ⟨b, []⟩ false h
    rw [e] at hb
    simp at hb
  have nc : ∀ b : Bytes, (parse (some ⟨b, []⟩) (some .lfEnded) false matches .ret (_, none, _)) → ¬ CrashesOnLines 10 b := by
    intro b hb h
    cases h with
    | now h =>
      rw [(C09_terminated_panics_exactly_partial .lfEnded (Or.inl rfl) ⟨b, []⟩ false).mpr ⟨_, _, h⟩] at hb
      simp at hb
    | later h => exact key b hb ⟨_, _, _, h⟩
  have k1 : parse (some ⟨b!"<0>1 - - -", []⟩) (some .lfEnded) false matches .ret (_, none, _) := by decide +kernel
  have k2 : parse (some ⟨b!"<", []⟩) (some .lfEnded) false matches .ret (_, none, _) := by decide +kernel
  refine .read (ps := [_]) (qs := [_]) (kept1 := b!"<0>1 - - -") (by decide) ?_ (.take h1 (.stop (key _ k1)))
    (.read (ps := [_]) (qs := []) (kept1 := b!"<") (by decide) ?_ (.take h2 (.stop (key _ k2))) .nil)
  · rw [List.nil_append, crashesOnLines_later (t := .lfEnded) rfl h1]; exact nc _ k1
  · exact fun h => nc _ k2 ((crashesOnLines_later (t := .lfEnded) rfl h2).mp h)
example : LineReady 10 b!"<0>1 - - - - - [a b=\"c\"] x\n<0>1 - - - - - [d e=\"f\"] y\n"
    b!"<0>1 - - - - - [a b=\"c\"] x\n<0>1 - - - - - [d e=\"f\"] y" b!"y" [] := by
  obtain ⟨idx, txt, hL⟩ := layout_twoLines
  exact ⟨_, _, _, hL.frame, by decide, by decide⟩
example : CrashesOnLines 0 (b!"<0>1 - - - - - - a\x00" ++ b!"<0>1 - - - - - -") :=
  .later (p := b!"<0>1 - - - - - - a") (text := b!"a") (suffix := b!"<0>1 - - - - - -")
    ⟨[b!"<0>1", b!"-", b!"-", b!"-", b!"-", b!"-"], [], 32,
      Frame.dashText (fs := [b!"<0>1", b!"-", b!"-", b!"-", b!"-", b!"-"]) (t := b!"a\x00" ++ b!"<0>1 - - - - - -") rfl (by decide), by decide, by decide⟩
    (.now (.dash (fs := [b!"<0>1", b!"-", b!"-", b!"-", b!"-", b!"-"]) rfl (by decide)))
end Syslog5424
