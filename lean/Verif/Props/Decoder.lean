import Verif.Props.Wire
import Verif.Props.Fields
/-! # Property C80: the receiver of an RFC 5425 stream is a function of the bytes -/
namespace Syslog5424
open Spec Transport Tok

theorem Spec.ReadsInt.unique {hdr : Bytes} {l l' : Int} (h : ReadsInt hdr l) (h' : ReadsInt hdr l') : l = l' := by
  obtain ⟨sign, ds, rfl, h2, h3, h4⟩ := h
  obtain ⟨sign', ds', h1', h2', h3', h4'⟩ := h'
  have dig : ∀ {x : UInt8}, IsDigit x → x ≠ 45 ∧ x ≠ 43 := by
    intro x hx
    constructor <;> rintro rfl <;> revert hx <;> decide
  have head : ∀ {ds : Bytes} {x : UInt8} {r : Bytes}, (∀ d ∈ ds, IsDigit d) → ds = x :: r → x ≠ 45 ∧ x ≠ 43 := by
    rintro ds x r h rfl; exact dig (h x (by simp))
  rcases h4 with ⟨rfl | rfl, h4⟩ | ⟨rfl, h4⟩ <;> rcases h4' with ⟨rfl | rfl, h4'⟩ | ⟨rfl, h4'⟩ <;>
    simp only [List.nil_append, List.cons_append, List.cons.injEq, true_and] at h1'
  · rw [h4, h4', h1']
  · exact absurd rfl (head h3 h1').2
  · exact absurd rfl (head h3 h1').1
  · exact absurd rfl (head h3' h1'.symm).2
  · rw [h4, h4', h1']
  · exact absurd h1'.1 (by decide)
  · exact absurd rfl (head h3' h1'.symm).1
  · exact absurd h1'.1 (by decide)
  · rw [h4, h4', h1']

/-- The bytes before the first space are determined. -/
theorem first_space {h h' r r' : Bytes} (hs : (32 : UInt8) ∉ h) (hs' : (32 : UInt8) ∉ h')
    (e : h ++ b!" " ++ r = h' ++ b!" " ++ r') : h = h' ∧ r = r' := by
  have e1 := indexByte_append (q := r) hs
  have e2 := indexByte_append (q := r') hs'
  have e' : h ++ (32 : UInt8) :: r = h' ++ (32 : UInt8) :: r' := by simpa using e
  rw [e', e2, Option.some.injEq] at e1
  have := List.append_inj e' e1.symm
  exact ⟨this.1, by simpa using this.2⟩

theorem Spec.Ready.unique {b hdr p suffix hdr' p' suffix' : Bytes} (h : Ready b hdr p suffix) (h' : Ready b hdr' p' suffix') :
    p = p' ∧ suffix = suffix' := by
  obtain ⟨h1, _, h2, h3, _⟩ := h
  obtain ⟨h1', _, h2', h3', _⟩ := h'
  rw [h1] at h1'
  obtain ⟨rfl, e⟩ := first_space h2 h2' (r := p ++ suffix) (r' := p' ++ suffix') (by simpa using h1')
  have := h3.unique h3'
  exact List.append_inj e (by omega)

theorem Spec.Ready.more {b hdr p suffix : Bytes} (h : Ready b hdr p suffix) (x : Bytes) :
    Ready (b ++ x) hdr p (suffix ++ x) :=
  ⟨by rw [h.bytes]; simp, by have := h.enough; simp only [List.length_append]; omega, h.header, h.length, h.range⟩

/-- C80: what a stream decodes to is determined. -/
theorem C80_functional {b rest rest' : Bytes} {ps ps' : List Bytes} (h : Decodes b ps rest) (h' : Decodes b ps' rest') :
    ps = ps' ∧ rest = rest' := by
  induction h generalizing ps' with
  | stop h =>
    cases h' with
    | stop => exact ⟨rfl, rfl⟩
    | take h1 => exact absurd ⟨_, _, _, h1⟩ h
  | take h _ ih =>
    cases h' with
    | stop h1 => exact absurd ⟨_, _, _, h⟩ h1
    | take h1 h2 =>
      obtain ⟨rfl, rfl⟩ := h.unique h1
      obtain ⟨rfl, rfl⟩ := ih h2
      exact ⟨rfl, rfl⟩

theorem Spec.Decodes.more {R P Q x : Bytes} {ps qs : List Bytes} (h : Decodes R ps P) (h' : Decodes (P ++ x) qs Q) :
    Decodes (R ++ x) (ps ++ qs) Q := by
  induction h with
  | stop => exact h'
  | take h _ ih => exact .take (h.more x) (ih h')

theorem ready_not_bad {b hdr p suffix : Bytes} (h : Ready b hdr p suffix) :
    ¬ BadHeader b ∧ ¬ Truncated b := by
  obtain ⟨h1, _, h2, h3, h4⟩ := h
  have hlen := congrArg List.length h1
  simp only [List.length_append, List.length_singleton] at hlen
  constructor
  · rintro ⟨hdr', pl, l, e, _, g2, g3, g4, g5, g6⟩
    rw [e] at h1
    obtain ⟨rfl, e⟩ := first_space g2 h2 (r := pl) (r' := p ++ suffix) (by simpa using h1)
    have := h3.unique g3
    omega
  · rintro ⟨hdr', pl, l, e, _, g2, g3, g4, g5, _⟩
    rw [e] at h1
    obtain ⟨rfl, e⟩ := first_space g2 h2 (r := pl) (r' := p ++ suffix) (by simpa using h1)
    have := h3.unique g3
    have := congrArg List.length e
    simp only [List.length_append] at this
    omega

theorem crashesOn_later {eof : Prop} {b hdr p suffix : Bytes} (h : Ready b hdr p suffix) :
    CrashesOn eof b ↔ CrashesOn eof suffix := by
  refine ⟨fun hc => ?_, fun hc => .later h hc⟩
  cases hc with
  | header h' => exact absurd h' (ready_not_bad h).1
  | truncated _ h' => exact absurd h' (ready_not_bad h).2
  | later h1 h2 => rw [(h.unique h1).2]; exact h2

theorem crashesOn_short {eof : Prop} {b : Bytes} (h : b.length < 20) : ¬ CrashesOn eof b := by
  intro hc
  cases hc with
  | header h' => obtain ⟨_, _, _, _, h1, _⟩ := h'; omega
  | truncated _ h' => obtain ⟨_, _, _, _, h1, _⟩ := h'; omega
  | later h1 => have := h1.enough; omega

/-- `Parse` on any RFC 5425 buffer, in terms of the reference. -/
theorem parse_5425_exact (buf : Slice) (eof : Bool) (hcap : buf.cap < 2 ^ 63) :
    (parse (some buf) (some .rfc5425) eof = .panic ↔ BadHeader buf.vis ∨ (eof = true ∧ Truncated buf.vis)) ∧
    (∀ m r e, parse (some buf) (some .rfc5425) eof = .ret (m, some r, e) →
      r.spare = buf.spare ∧ ∃ hdr p, Ready buf.vis hdr p r.vis ∧ Conveys p m e) ∧
    (∀ m e, parse (some buf) (some .rfc5425) eof = .ret (m, none, e) → ¬ ∃ hdr p suffix, Ready buf.vis hdr p suffix) := by
  refine ⟨?_, ?_, ?_⟩
  · rw [C09_rfc5425_panics_exactly_partial buf eof hcap]
    constructor
    · rintro ⟨hdr, pl, l, ⟨h1, h2, h3, h4, h5⟩, h6⟩
      obtain ⟨g1, g2, g3⟩ := atoi_readsInt.mp h5
      rcases h6 with h6 | ⟨h6, h7, h8, h9⟩
      · left
        refine ⟨hdr, pl, l, h4, h1, h3, g1, g2, g3, ?_⟩
        simp only [HeaderInRange, not_and, Int.not_lt] at h6
        by_cases h0 : l < 0
        · exact Or.inl h0
        · exact Or.inr (h6 (by omega))
      · exact Or.inr ⟨h8, hdr, pl, l, h4, h1, h3, g1, h7, h6.2, h9⟩
    · rintro (⟨hdr, pl, l, h4, h1, h3, g1, g2, g3, h6⟩ | ⟨h8, hdr, pl, l, h4, h1, h3, g1, h7, h6, h9⟩)
      · have hne : hdr ≠ [] := by
          rintro rfl
          obtain ⟨sign, ds, e, hd, _⟩ := g1
          exact hd (List.append_eq_nil_iff.mp e.symm).2
        refine ⟨hdr, pl, l, ⟨h1, hne, h3, h4, atoi_readsInt.mpr ⟨g1, g2, g3⟩⟩, Or.inl ?_⟩
        rintro ⟨a, b⟩
        omega
      · have hne : hdr ≠ [] := by
          rintro rfl
          obtain ⟨sign, ds, e, hd, _⟩ := g1
          exact hd (List.append_eq_nil_iff.mp e.symm).2
        exact ⟨hdr, pl, l, ⟨h1, hne, h3, h4, atoi_readsInt.mpr ⟨g1, by omega, by omega⟩⟩, Or.inr ⟨⟨by omega, h6⟩, h7, h8, h9⟩⟩
  · intro m r e h
    unfold parse at h
    simp only at h
    rcases prefixStrip_cases buf eof hcap with ⟨_, hp⟩ | ⟨_, _, hp⟩ | ⟨n, _, _, _, _, hp⟩ |
      ⟨n, l, h20, hn, hi, ha, hr, hp⟩ | ⟨n, l, h20, hn, hi, ha, hr, hlt, hp⟩ | ⟨n, k, h20, hn, hi, ha, hk, hp⟩
    · rw [hp] at h; simp at h
    · rw [hp] at h
      have : parseBody ⟨[], []⟩ none (some .noHeader) (some .rfc5425) eof = .ret (MsgImm.zero, none, some .noHeader) := rfl
      simp [this] at h
    · rw [hp] at h
      have : parseBody ⟨[], []⟩ none (some .invHeader) (some .rfc5425) eof = .ret (MsgImm.zero, none, some .invHeader) := rfl
      simp [this] at h
    · rw [hp] at h; simp at h
    · rw [hp] at h
      cases eof with
      | false => simp at h
      | true =>
        simp only [if_true, Out.ret_bind] at h
        rw [if_neg (by simp)] at h
        rcases parseBody_truncated ⟨buf.vis.drop (n + 1), buf.spare⟩ with h' | ⟨fs, xs, idx, hL, h'⟩ | ⟨_, _, _, _, _, _, h'⟩ |
              ⟨fs, xs, y, tx, idx, txt, htx, hL, h'⟩ <;> rw [Slice.ofNil_some, h'] at h <;> simp at h
    · rw [hp] at h
      simp only [Out.ret_bind] at h
      rw [if_neg (by simp), Slice.ofNil_some] at h
      obtain ⟨_, _, hsp, he, _⟩ := framed_of h20 hn hi ha
      have hlen : ((buf.vis.take (n + 1 + k)).drop (n + 1)).length = k := by
        simp only [Slice.len] at hk
        simp only [List.length_drop, List.length_take]; omega
      have hrest : r = ⟨buf.vis.drop (n + 1 + k), buf.spare⟩ := by
        rcases parseBody_rest ⟨(buf.vis.take (n + 1 + k)).drop (n + 1), buf.vis.drop (n + 1 + k) ++ buf.spare⟩
          ⟨buf.vis.drop (n + 1 + k), buf.spare⟩ eof with ⟨e', h'⟩ | ⟨fs, xs, o, idx, txt, hL, h'⟩ <;>
        · rw [h'] at h
          simp only [Out.ret.injEq, Prod.mk.injEq, Option.some.injEq] at h
          exact h.2.1.symm
      refine ⟨by rw [hrest], buf.vis.take n, (buf.vis.take (n + 1 + k)).drop (n + 1), ⟨?_, h20, hsp, ?_, ?_⟩, parseBody_conveys _ _ _ h⟩
      · rw [hrest]
        conv => lhs; rw [he]
        simp only [List.append_assoc]
        congr 2
        rw [List.drop_take, Nat.add_sub_cancel_left, ← List.drop_drop (i := k) (j := n + 1), List.take_append_drop]
      · rw [hlen]; exact (atoi_readsInt.mp ha).1
      · rw [hlen, List.length_take]
        simp only [Slice.len, Slice.cap] at hk hcap
        omega
  · rintro m e h ⟨hdr, p, suffix, h1, h20', hs, hl, _⟩
    have hne : hdr ≠ [] := by
      rintro rfl
      obtain ⟨sign, ds, e, hd, _⟩ := hl
      exact hd (List.append_eq_nil_iff.mp e.symm).2
    have hi : indexByte SP buf.vis = some hdr.length := by
      have := indexByte_append (q := p ++ suffix) hs
      rw [h1]; simpa using this
    have htk : buf.vis.take hdr.length = hdr := by rw [h1]; simp
    have hll := congrArg List.length h1
    simp only [List.length_append, List.length_singleton] at hll
    have hc : buf.vis.length < 2 ^ 63 := by simp only [Slice.cap] at hcap; omega
    have ha : atoi hdr = some (p.length : Int) := atoi_readsInt.mpr ⟨hl, by omega, by omega⟩
    have hpos : 0 < hdr.length := List.length_pos_iff.mpr hne
    unfold parse at h
    simp only at h
    rcases prefixStrip_cases buf eof hcap with ⟨g, hp⟩ | ⟨_, g, hp⟩ | ⟨n, _, _, g, g', hp⟩ |
      ⟨n, l, h20, hn, hi', ha', hr, hp⟩ | ⟨n, l, h20, hn, hi', ha', hr, hlt, hp⟩ | ⟨n, k, h20, hn, hi', ha', hk, hp⟩
    · simp only [Slice.len] at g; omega
    · rw [hi] at g
      rcases g with g | g
      · cases g
      · simp only [Option.some.injEq] at g; omega
    · rw [hi, Option.some.injEq] at g
      subst g
      rw [htk, ha] at g'; cases g'
    · rw [hp] at h; simp at h
    · rw [hi, Option.some.injEq] at hi'
      subst hi'
      rw [htk, ha, Option.some.injEq] at ha'
      simp only [Slice.len] at hlt
      omega
    · rw [hp] at h
      simp only [Out.ret_bind] at h
      rw [if_neg (by simp), Slice.ofNil_some] at h
      rcases parseBody_rest ⟨(buf.vis.take (n + 1 + k)).drop (n + 1), buf.vis.drop (n + 1 + k) ++ buf.spare⟩
        ⟨buf.vis.drop (n + 1 + k), buf.spare⟩ eof with ⟨e', h'⟩ | ⟨fs, xs, o, idx, txt, hL, h'⟩ <;>
      · rw [h'] at h
        simp at h

theorem parseLoop_exact (eof : Bool) (fuel : Nat) : ∀ (data : Slice) (out0 : List (MsgImm × Option Err)),
    data.cap < 2 ^ 63 → data.len < fuel →
    (parseLoop .rfc5425 eof fuel data out0 = .panic ↔ CrashesOn (eof = true) data.vis) ∧
    ∀ data' out, parseLoop .rfc5425 eof fuel data out0 = .ret (data', out) →
      ∃ ps ds, Decodes data.vis ps data'.vis ∧ out = out0 ++ ds ∧ Each (fun p d => Conveys p d.1 d.2) ps ds := by
  induction fuel with
  | zero => intro _ _ _ h; omega
  | succ fuel ih =>
    intro data out0 hcap hfuel
    have hlen : data.vis.length < 2 ^ 63 := by simp only [Slice.cap] at hcap; omega
    obtain ⟨hA, hB, hC⟩ := parse_5425_exact data eof hcap
    unfold parseLoop
    cases hp : parse (some data) (some .rfc5425) eof with
    | hang => exact absurd hp (C09_never_hangs (some data) (some .rfc5425) eof hcap)
    | panic =>
      refine ⟨⟨fun _ => ?_, fun _ => rfl⟩, fun _ _ h => by cases h⟩
      rcases hA.mp hp with h | ⟨h1, h2⟩
      · exact .header h
      · exact .truncated h1 h2
    | ret x =>
      obtain ⟨m, rest, e⟩ := x
      have hnp : ¬ (BadHeader data.vis ∨ (eof = true ∧ Truncated data.vis)) := by
        intro h
        rw [hA.mpr h] at hp; cases hp
      simp only [Out.ret_bind]
      cases rest with
      | none =>
        have hno := hC m e hp
        refine ⟨⟨fun h => (by cases h), fun h => ?_⟩, ?_⟩
        · exfalso
          cases h with
          | header h => exact hnp (Or.inl h)
          | truncated h h' => exact hnp (Or.inr ⟨h, h'⟩)
          | later h _ => exact hno ⟨_, _, _, h⟩
        · intro data' out h
          simp only [Out.pure_eq, Out.ret.injEq, Prod.mk.injEq] at h
          obtain ⟨rfl, rfl⟩ := h
          exact ⟨[], [], .stop hno, by simp, .nil⟩
      | some r =>
        obtain ⟨hsp, hdr, p, hr, hcv⟩ := hB m r e hp
        have hl := congrArg List.length hr.bytes
        simp only [List.length_append, List.length_singleton] at hl
        simp only
        by_cases h0 : r.len = 0
        · rw [if_pos h0]
          have hv : r.vis = [] := List.length_eq_zero_iff.mp h0
          refine ⟨⟨fun h => (by cases h), fun h => ?_⟩, ?_⟩
          · exfalso
            rw [crashesOn_later hr] at h
            exact crashesOn_short (by rw [hv]; decide) h
          · intro data' out h
            simp only [Out.pure_eq, Out.ret.injEq, Prod.mk.injEq] at h
            obtain ⟨rfl, rfl⟩ := h
            refine ⟨[p], [(m, e)], .take hr (.stop ?_), rfl, .cons hcv .nil⟩
            rintro ⟨_, _, _, h⟩
            have := h.enough
            rw [hv] at this; simp at this
        · rw [if_neg h0]
          have hc : r.cap < 2 ^ 63 := by
            simp only [Slice.cap, hsp] at hcap ⊢; omega
          obtain ⟨i1, i2⟩ := ih r (out0 ++ [(m, e)]) hc (by simp only [Slice.len] at hfuel ⊢; omega)
          refine ⟨i1.trans (crashesOn_later hr).symm, ?_⟩
          intro data' out h
          obtain ⟨ps, ds, g1, g2, g3⟩ := i2 data' out h
          exact ⟨p :: ps, (m, e) :: ds, .take hr g1, by rw [g2]; simp, .cons hcv g3⟩

/-- One read of an RFC 5425 stream: it crashes on certain bytes and else decodes. -/
theorem step_exact {s : State} {r : Read} (hm : Mem s) (hf : r.Fits s) :
    (step .rfc5425 s r = .panic ↔ r.data ≠ [] ∧ CrashesOn (r.err = .eof) (s.pending ++ r.data)) ∧
    ∀ b s', step .rfc5425 s r = .ret (b, s') → (r.data = [] → s'.pending = s.pending ∧ s'.out = s.out) ∧
      (r.data ≠ [] → ∃ ps ds, Decodes (s.pending ++ r.data) ps s'.pending ∧ s'.out = s.out ++ ds ∧
        Each (fun p d => Conveys p d.msg d.err) ps ds) := by
  by_cases h0 : r.data = []
  · have hret : ∃ b s', step .rfc5425 s r = .ret (b, s') ∧ s'.out = s.out := by
      unfold step
      simp only [h0, List.length_nil, true_and, if_true]
      split
      · exact ⟨_, _, rfl, rfl⟩
      · exact ⟨_, _, rfl, rfl⟩
    obtain ⟨b, s', hs, ho⟩ := hret
    refine ⟨⟨fun h => (by rw [hs] at h; cases h), fun h => absurd h0 h.1⟩, ?_⟩
    intro b' s'' hs'
    rw [hs] at hs'
    simp only [Out.ret.injEq, Prod.mk.injEq] at hs'
    obtain ⟨rfl, rfl⟩ := hs'
    refine ⟨fun _ => ⟨?_, ho⟩, fun h => absurd h0 h⟩
    obtain ⟨pieces, ds, h1, h2, h3⟩ := step_pieces hm hf hs
    have hd : ds = [] := by
      rw [ho] at h2
      exact List.append_cancel_left (h2.symm.trans (List.append_nil _).symm)
    subst hd
    cases h3
    simpa [h0] using h1.symm
  · obtain ⟨arr, spare, errs, harr, hl, hst⟩ := step_eq (t := .rfc5425) hm hf h0
    have hcap : (Slice.mk (s.pending ++ r.data) spare).cap < 2 ^ 63 := by
      simp only [Slice.cap]
      simp only [readBuffer] at hl
      omega
    obtain ⟨hA, hB⟩ := parseLoop_exact (decide (r.err = .eof)) ((s.pending ++ r.data).length + 1) ⟨s.pending ++ r.data, spare⟩ []
      hcap (by simp only [Slice.len]; omega)
    simp only [decide_eq_true_eq] at hA
    cases hp : parseLoop .rfc5425 (decide (r.err = .eof)) ((s.pending ++ r.data).length + 1) ⟨s.pending ++ r.data, spare⟩ [] with
    | panic =>
      rw [hp] at hst
      refine ⟨⟨fun _ => ⟨h0, hA.mp hp⟩, fun _ => hst⟩, fun b s' h => ?_⟩
      rw [hst] at h; cases h
    | hang =>
      rw [hp] at hst
      refine ⟨⟨fun h => (by rw [hst] at h; cases h), fun h => ?_⟩, fun b s' h => ?_⟩
      · rw [hA.mpr h.2] at hp; cases hp
      · rw [hst] at h; cases h
    | ret x =>
      obtain ⟨data', ds⟩ := x
      rw [hp] at hst
      simp only [Out.ret_bind, Out.pure_eq] at hst
      refine ⟨⟨fun h => (by rw [hst] at h; cases h), fun h => ?_⟩, ?_⟩
      · rw [hA.mpr h.2] at hp; cases hp
      intro b s' hs
      refine ⟨fun h => absurd h h0, fun _ => ?_⟩
      obtain ⟨ps, ds', g1, g2, g3⟩ := hB _ _ hp
      rw [List.nil_append] at g2
      subst g2
      obtain ⟨pieces, _, h1, _, _⟩ := step_pieces hm hf hs
      obtain ⟨pieces', _, h1', _, _⟩ := parseLoop_pieces _ hcap hp
      have hm' := (step_mem hm hf hs).1
      rw [hst] at hs
      simp only [Out.ret.injEq, Prod.mk.injEq] at hs
      have hdone : s'.done = data'.len := by rw [← hs.2]; unfold Tok.advance; simp only; split <;> rfl
      have hout : s'.out = s.out ++ ds.map fun d => ⟨s.old.length, d.1, d.2⟩ := by
        rw [← hs.2]; unfold Tok.advance; simp only; split <;> rfl
      have hpend : s'.pending = data'.vis := by
        have hl' : s'.pending.length = data'.vis.length := by rw [hm'.pending_length, hdone]; rfl
        simp only at h1'
        rw [h1'] at h1
        exact (List.append_inj' h1 hl'.symm).2.symm
      refine ⟨ps, _, by rw [hpend]; exact g1, hout, Spec.Each.map g3⟩

theorem crashesOn_decodes {eof : Prop} {R P : Bytes} {ps : List Bytes} (h : Decodes R ps P) (x : Bytes) :
    CrashesOn eof (R ++ x) ↔ CrashesOn eof (P ++ x) := by
  induction h with
  | stop => exact Iff.rfl
  | take h _ ih => exact (crashesOn_later (h.more x)).trans ih

theorem run_exact {s : State} {rs : List Read} {o : Out (Bool × State)} (h : Run .rfc5425 s rs o) :
    ∀ {R : Bytes} {ps : List Bytes}, Mem s → Decodes R ps s.pending → ¬ CrashesOn False s.pending →
    (o = .panic ↔ CrashesOn (∃ r ∈ rs, r.err = .eof ∧ r.data ≠ []) (R ++ arrived rs)) ∧
    ∀ b s', o = .ret (b, s') → ∃ qs ds, Decodes (R ++ arrived rs) (ps ++ qs) s'.pending ∧ s'.out = s.out ++ ds ∧
      Each (fun p d => Conveys p d.msg d.err) qs ds := by
  have mono : ∀ {E E' : Prop} {b : Bytes}, (E → E') → CrashesOn E b → CrashesOn E' b := by
    intro E E' b hE h
    induction h with
    | header h => exact .header h
    | truncated h h' => exact .truncated (hE h) h'
    | later h _ ih => exact .later h ih
  induction h with
  | @nil s =>
    intro R ps hm hd hn
    refine ⟨⟨fun h => (by cases h), fun h => absurd ?_ hn⟩, ?_⟩
    · have h := (crashesOn_decodes hd _).mp h
      simp only [arrived, List.flatMap_nil, List.append_nil] at h
      exact mono (by simp) h
    · intro b s' e
      simp only [Out.ret.injEq, Prod.mk.injEq] at e
      obtain ⟨rfl, rfl⟩ := e
      exact ⟨[], [], by simpa [arrived] using hd, by simp, .nil⟩
  | @cons s s1 r rs o hf hs _ ih =>
    intro R ps hm hd hn
    obtain ⟨hA, hB⟩ := step_exact hm hf
    have hm1 := (step_mem hm hf hs).1
    have hne := step_goes_on hs
    have hE : (∃ x ∈ r :: rs, x.err = .eof ∧ x.data ≠ []) ↔ (∃ x ∈ rs, x.err = .eof ∧ x.data ≠ []) := by
      simp [hne]
    rw [hE]
    obtain ⟨hB1, hB2⟩ := hB _ _ hs
    by_cases h0 : r.data = []
    · obtain ⟨e1, e2⟩ := hB1 h0
      have := ih hm1 (R := R) (ps := ps) (by rw [e1]; exact hd) (by rw [e1]; exact hn)
      rw [e2] at this
      simpa [arrived, h0] using this
    · obtain ⟨qs, ds, g1, g2, g3⟩ := hB2 h0
      have hd1 := hd.more g1
      have hn1 : ¬ CrashesOn False s1.pending := by
        intro hc
        have h1 : CrashesOn False (s.pending ++ r.data) := by
          have := (crashesOn_decodes (eof := False) g1 []).mpr (by rw [List.append_nil]; exact hc)
          rwa [List.append_nil] at this
        rw [hA.mpr ⟨h0, mono (fun h => h.elim) h1⟩] at hs
        cases hs
      obtain ⟨i1, i2⟩ := ih hm1 hd1 hn1
      have harr : R ++ arrived (r :: rs) = R ++ r.data ++ arrived rs := by simp [arrived]
      rw [harr]
      refine ⟨i1, ?_⟩
      intro b s' e
      obtain ⟨qs', ds', k1, k2, k3⟩ := i2 b s' e
      exact ⟨qs ++ qs', ds ++ ds', by rw [← List.append_assoc]; exact k1, by rw [k2, g2]; simp, g3.append k3⟩
  | @last s r o hf hs hn' =>
    intro R ps hm hd hn
    obtain ⟨hA, hB⟩ := step_exact hm hf
    have harr : R ++ arrived [r] = R ++ r.data := by simp [arrived]
    rw [harr]
    constructor
    · rw [← hs, hA, crashesOn_decodes hd]
      constructor
      · rintro ⟨h0, h1⟩
        exact mono (fun he => ⟨r, by simp, he, h0⟩) h1
      · intro hc
        have h0 : r.data ≠ [] := by
          intro h0
          rw [h0, List.append_nil] at hc
          exact hn (mono (by rintro ⟨x, hx, _, h⟩; rw [List.mem_singleton] at hx; rw [hx] at h; exact h h0) hc)
        exact ⟨h0, mono (by rintro ⟨x, hx, h, _⟩; rw [List.mem_singleton] at hx; rw [hx] at h; exact h) hc⟩
    · intro b s' e
      rw [e] at hs
      obtain ⟨hB1, hB2⟩ := hB _ _ hs
      by_cases h0 : r.data = []
      · obtain ⟨e1, e2⟩ := hB1 h0
        exact ⟨[], [], by rw [h0, List.append_nil, List.append_nil, e1]; exact hd, by rw [e2]; simp, .nil⟩
      · obtain ⟨qs, ds, g1, g2, g3⟩ := hB2 h0
        exact ⟨qs, ds, hd.more g1, g2, g3⟩

theorem decodes_init : Decodes [] [] init.pending := by
  rw [pending_init]
  refine .stop ?_
  rintro ⟨_, _, _, h⟩
  have := h.enough
  simp at this

/-- **C80.** Whatever bytes arrive over an RFC 5425 connection, and however they are cut into reads: the receiver
delivers, in order, what the frames at the front of the stream convey, one pair for each, and keeps what follows the
last complete frame. -/
theorem C80_decodes (reads : List Read) (b : Bool) (s : State) (h : Run .rfc5425 init reads (.ret (b, s))) :
    ∃ ps, Decodes (arrived reads) ps s.pending ∧ Each (fun p d => Conveys p d.msg d.err) ps s.out := by
  obtain ⟨qs, ds, h1, h2, h3⟩ := (run_exact h mem_init decodes_init
    (crashesOn_short (by rw [pending_init]; decide))).2 b s rfl
  rw [show init.out = [] from rfl, List.nil_append] at h2
  exact ⟨qs, by simpa using h1, by rw [h2]; exact h3⟩

/-- C80: it crashes exactly on the streams that have, behind some frames, a length header that is negative or too large,
or that end (when the last bytes come with the end of file) inside a payload, right behind the structured data of a
message: whatever the bytes and the reads are. -/
theorem C80_crashes_exactly (reads : List Read) (o : Out (Bool × State)) (h : Run .rfc5425 init reads o) :
    o = .panic ↔ CrashesOn (∃ r ∈ reads, r.err = .eof ∧ r.data ≠ []) (arrived reads) := by
  have := (run_exact h mem_init decodes_init (crashesOn_short (by rw [pending_init]; decide))).1
  simpa using this

theorem priIs_unique {d : Bytes} {v v' : Int} (h : PriIs d v) (h' : PriIs d v') : v = v' := by
  obtain ⟨ds, h1, _, _, _, rfl⟩ := h
  obtain ⟨ds', h1', _, _, _, rfl⟩ := h'
  rw [h1] at h1'
  have := List.append_cancel_right h1'
  have := List.append_cancel_left this
  rw [this]

theorem readsAs_same {m m' : MsgImm} {pri ts host app pid mid text : Bytes} (h : ReadsAs m pri ts host app pid mid text)
    (h' : ReadsAs m' pri ts host app pid mid text) :
    m.priority = m'.priority ∧ m.timeStamp = m'.timeStamp ∧ m.hostname = m'.hostname ∧
      m.appName = m'.appName ∧ m.procID = m'.procID ∧ m.msgID = m'.msgID ∧ m.textOf = m'.textOf := by
  refine ⟨?_, by rw [h.timeStamp, h'.timeStamp], ?_, ?_, ?_, ?_, by rw [h.text, h'.text]⟩
  · obtain ⟨p, e, hp⟩ := h.priority
    obtain ⟨p', e', hp'⟩ := h'.priority
    rw [e, e']
    rcases hp with hp | ⟨hn, rfl⟩ <;> rcases hp' with hp' | ⟨hn', rfl⟩
    · rw [priIs_unique hp hp']
    · exact absurd ⟨_, hp⟩ hn'
    · exact absurd ⟨_, hp'⟩ hn
    · rfl
  · obtain ⟨x, e, hx⟩ := h.hostname
    obtain ⟨x', e', hx'⟩ := h'.hostname
    rw [e, e', sanitised_unique hx hx']
  · obtain ⟨x, e, hx⟩ := h.appName
    obtain ⟨x', e', hx'⟩ := h'.appName
    rw [e, e', sanitised_unique hx hx']
  · obtain ⟨x, e, hx⟩ := h.procID
    obtain ⟨x', e', hx'⟩ := h'.procID
    rw [e, e', sanitised_unique hx hx']
  · obtain ⟨x, e, hx⟩ := h.msgID
    obtain ⟨x', e', hx'⟩ := h'.msgID
    rw [e, e', sanitised_unique hx hx']

theorem conveys_same {p : Bytes} {m m' : MsgImm} {e e' : Option Err} (h : Conveys p m e) (h' : Conveys p m' e') :
    e = e' ∧ SameToUser m m' := by
  by_cases hf : ∃ fs xs o, Frame p fs xs o
  · obtain ⟨fs, xs, o, hf⟩ := hf
    have h6 : fs.length = 6 := by cases hf <;> assumption
    match fs, h6, hf with
    | [pri, ts, host, app, pid, mid], _, hf =>
      obtain ⟨h1, h2, h3⟩ := h.message hf
      obtain ⟨h1', h2', h3'⟩ := h'.message hf
      exact ⟨by rw [h1, h1'], by rw [h2, h2'], fun _ => readsAs_same h3 h3'⟩
  · obtain ⟨_, h2⟩ := h.malformed hf
    obtain ⟨_, h2'⟩ := h'.malformed hf
    obtain ⟨x, hx⟩ := wrong_iff.mpr hf
    exact ⟨by rw [h.diagnosis hx, h'.diagnosis hx], by rw [h2, h2'], fun h => absurd h2 h⟩

/-- **C80.** The segmentation does not matter: two receivers of the same RFC 5425 bytes, whatever these bytes are and
however they are cut into reads, deliver the same messages and errors, in the same order, and wait with the same bytes;
and unless one of the streams ends with the end of file in the last read, both crash or none does. -/
theorem C80_segmentation (reads reads' : List Read) (o o' : Out (Bool × State)) (h : Run .rfc5425 init reads o)
    (h' : Run .rfc5425 init reads' o') (he : arrived reads = arrived reads') :
    (∀ b s b' s', o = .ret (b, s) → o' = .ret (b', s') → s.pending = s'.pending ∧
      Each (fun d d' => d.err = d'.err ∧ SameToUser d.msg d'.msg) s.out s'.out) ∧
    ((∀ r ∈ reads, r.err = .eof → r.data = []) → (∀ r ∈ reads', r.err = .eof → r.data = []) → (o = .panic ↔ o' = .panic)) := by
  constructor
  · rintro b s b' s' rfl rfl
    obtain ⟨ps, h1, h2⟩ := C80_decodes reads b s h
    obtain ⟨ps', h1', h2'⟩ := C80_decodes reads' b' s' h'
    rw [he] at h1
    obtain ⟨rfl, e⟩ := C80_functional h1 h1'
    refine ⟨e, ?_⟩
    clear h1 h1' e h h' he
    generalize s.out = out at h2
    generalize s'.out = out' at h2'
    induction h2 generalizing out' with
    | nil => cases h2'; exact .nil
    | cons hx _ ih =>
      cases h2' with
      | cons hx' h2' => exact .cons (conveys_same hx hx') (ih _ h2')
  · intro hn hn'
    rw [C80_crashes_exactly reads o h, C80_crashes_exactly reads' o' h', he]
    have e1 : (∃ r ∈ reads, r.err = .eof ∧ r.data ≠ []) ↔ False :=
      ⟨fun ⟨r, a, b, c⟩ => c (hn r a b), False.elim⟩
    have e2 : (∃ r ∈ reads', r.err = .eof ∧ r.data ≠ []) ↔ False :=
      ⟨fun ⟨r, a, b, c⟩ => c (hn' r a b), False.elim⟩
    rw [propext e1, propext e2]

/-- A read that is exactly one terminated message, when nothing waits. -/
theorem one_line {t : Transport} {c : UInt8} (ht : t.term = some c) {s : State} (hm : Mem s) (hp : s.pending = []) {dat : Bytes}
    {fs xs : List Bytes} {y : UInt8} {p : Bytes} {idx : List Int} {txt : Int} (hL : Layout dat fs xs (some (y :: (p ++ [c]))) idx txt)
    (hc : c ∉ p) (hf : Read.Fits { data := dat } s) (hne : dat ≠ []) :
    ∃ s' d, step t s { data := dat } = .ret (true, s') ∧ s'.out = s.out ++ [d] ∧ s'.pending = [] ∧ d.err = none ∧
      d.msg.string ++ [c] = dat := by
  obtain ⟨arr, spare, errs, _, _, h2⟩ := step_eq (t := t) hm hf hne
  rw [hp, List.nil_append] at h2
  obtain ⟨pre, h3, _, h4⟩ := parse_term_frame ht ⟨dat, spare⟩ false (q := []) hL hc
  unfold parseLoop at h2
  simp only [reduceCtorEq, decide_false] at h2
  rw [h4] at h2
  simp only [Out.ret_bind, Slice.len_mk, List.length_nil, if_true, Out.pure_eq, List.nil_append, List.map_cons, List.map_nil,
    Bool.not_false] at h2
  refine ⟨_, ⟨s.old.length, ⟨⟨pre ++ y :: p, [c] ++ spare⟩, idx, txt⟩, none⟩, h2, ?_, ?_, rfl, ?_⟩
  · unfold Tok.advance; simp only; split <;> rfl
  · unfold Tok.advance; simp only; split <;> simp [State.pending]
  · simp only at h3
    rw [h3]; simp [MsgImm.string]

/-- C41 is violated: with the LF transport the same bytes in one read are one message, and cut between
the lines they are two. -/
theorem C41_segmentation_violated : ∃ reads reads' s s', arrived reads = arrived reads' ∧
    Run .lfEnded init reads (.ret (true, s)) ∧ Run .lfEnded init reads' (.ret (true, s')) ∧
    (∃ d, s.out = [d] ∧ d.err = none) ∧ (∃ d d', s'.out = [d, d'] ∧ [d, d'].map (·.msg.string) = twoLines) := by
  obtain ⟨s, d, h1, h2, h3, _⟩ := C41_structured_data_violated
  obtain ⟨i1, t1, L1⟩ : ∃ idx txt, Layout b!"<0>1 - - - - - [a b=\"c\"] x\n"
      [b!"<0>1", b!"-", b!"-", b!"-", b!"-", b!"-"] [b!"[a b=\"c\"]"] (some (SP :: (b!"x" ++ [LF]))) idx txt := by
    have hi : Items b!"[a b=\"c\"] x\n" [b!"[a b=\"c\"]"] (some b!" x\n") :=
      .more (.last (p := b!"[a b=\"c") (by decide)) (.quiet (.last (by decide) (by decide)))
    exact ⟨_, _, Layout.sd (fs := [b!"<0>1", b!"-", b!"-", b!"-", b!"-", b!"-"]) rfl (by decide) hi
      ⟨b!"[a", b!"b=\"c\"] x\n", by decide, by decide, by decide⟩⟩
  obtain ⟨i2, t2, L2⟩ : ∃ idx txt, Layout b!"<0>1 - - - - - [d e=\"f\"] y\n"
      [b!"<0>1", b!"-", b!"-", b!"-", b!"-", b!"-"] [b!"[d e=\"f\"]"] (some (SP :: (b!"y" ++ [LF]))) idx txt := by
    have hi : Items b!"[d e=\"f\"] y\n" [b!"[d e=\"f\"]"] (some b!" y\n") :=
      .more (.last (p := b!"[d e=\"f") (by decide)) (.quiet (.last (by decide) (by decide)))
    exact ⟨_, _, Layout.sd (fs := [b!"<0>1", b!"-", b!"-", b!"-", b!"-", b!"-"]) rfl (by decide) hi
      ⟨b!"[d", b!"e=\"f\"] y\n", by decide, by decide, by decide⟩⟩
  have hf1 : Read.Fits { data := b!"<0>1 - - - - - [a b=\"c\"] x\n" } init := fits_init (by decide)
  obtain ⟨s1, d1, a1, a2, a3, a4, a5⟩ := one_line (t := .lfEnded) rfl mem_init pending_init L1 (by decide) hf1 (by decide)
  have hm1 := (step_mem mem_init hf1 a1).1
  have hf2 : Read.Fits { data := b!"<0>1 - - - - - [d e=\"f\"] y\n" } s1 := by
    have hr : 500 ≤ s1.room := by
      have h1 := hm1.size
      have h2 := hm1.big
      have h3 := hm1.pending_length
      rw [a3] at h3
      simp only [List.length_nil] at h3
      unfold State.room
      omega
    have : (b!"<0>1 - - - - - [d e=\"f\"] y\n").length = 27 := by decide
    simp only [Read.Fits, this, List.length_nil]
    omega
  obtain ⟨s2, d2, b1, b2, _, b4, b5⟩ := one_line (t := .lfEnded) rfl hm1 a3 L2 (by decide) hf2 (by decide)
  refine ⟨_, [{ data := b!"<0>1 - - - - - [a b=\"c\"] x\n" }, { data := b!"<0>1 - - - - - [d e=\"f\"] y\n" }], s, s2,
    by decide, h1, .cons hf1 a1 (.cons hf2 b1 .nil), ⟨d, h2, h3⟩, d1, d2, by rw [b2, a2]; rfl, ?_⟩
  have e1 : d1.msg.string = b!"<0>1 - - - - - [a b=\"c\"] x" := List.append_cancel_right (a5.trans (by decide : _ = b!"<0>1 - - - - - [a b=\"c\"] x" ++ [10]))
  have e2 : d2.msg.string = b!"<0>1 - - - - - [d e=\"f\"] y" := List.append_cancel_right (b5.trans (by decide : _ = b!"<0>1 - - - - - [d e=\"f\"] y" ++ [10]))
  rw [List.map_cons, List.map_cons, List.map_nil, e1, e2]
  rfl

/-- C80 at the interface: what `Receive` has returned from an RFC 5425 connection is what the first frames of its bytes
convey, in order, one pair for each. -/
theorem C80_receive (lenQueue : Nat) (es : List Recv.Event) (s : Recv.State)
    (h : Recv.run .rfc5425 lenQueue Recv.init es = some s) (hc : s.crashed = false) (i : Nat) (c : Recv.Conn)
    (hi : s.conns[i]? = some c) :
    ∃ ps rest, Decodes (arrived (Spec.readsOf i es)) ps rest ∧
      Each (fun p d => Conveys p d.msg d.err) (ps.take (Spec.ofConn i s.got).length) (Spec.ofConn i s.got) := by
  obtain ⟨b, tok, h1, h2⟩ := C44_order .rfc5425 lenQueue es s h hc i c hi
  obtain ⟨ps, h3, h4⟩ := C80_decodes _ b tok h1
  rw [← h2, List.append_assoc] at h4
  refine ⟨ps, _, h3, ?_⟩
  have split : ∀ (xs ys : List Delivered) (ps : List Bytes),
      Each (fun p (d : Delivered) => Conveys p d.msg d.err) ps (xs ++ ys) →
      Each (fun p (d : Delivered) => Conveys p d.msg d.err) (ps.take xs.length) xs := by
    intro xs
    induction xs with
    | nil => intro ys ps _; rw [List.length_nil, List.take_zero]; exact .nil
    | cons x xs ih =>
      intro ys ps h
      rw [List.cons_append] at h
      cases h with
      | cons h1 h2 =>
        rw [List.length_cons, List.take_succ_cons]
        exact .cons h1 (ih ys _ h2)
  exact split _ _ _ h4

/-- Examples for C80: a header with a sign and zeros is a frame; what the sample stream decodes to; a stream that
crashes; and streams that do not begin with a frame. -/
example : Ready b!"+007 garbage12 <0>1 - -" b!"+007" b!"garbage" b!"12 <0>1 - -" :=
  ⟨by decide, by decide, by decide, ⟨b!"+", b!"007", rfl, by decide, by decide +kernel, Or.inl (by decide +kernel)⟩, by decide⟩
example : CrashesOn False b!"7 garbage7 garbage-1 <0>1 - - - - - - hello" :=
  .later (hdr := b!"7") (p := b!"garbage") (suffix := b!"7 garbage-1 <0>1 - - - - - - hello")
    ⟨by decide, by decide, by decide, ⟨[], b!"7", rfl, by decide, by decide +kernel, Or.inl (by decide +kernel)⟩, by decide⟩
    (.later (hdr := b!"7") (p := b!"garbage") (suffix := b!"-1 <0>1 - - - - - - hello")
      ⟨by decide, by decide, by decide, ⟨[], b!"7", rfl, by decide, by decide +kernel, Or.inl (by decide +kernel)⟩, by decide⟩
      (.header ⟨b!"-1", b!"<0>1 - - - - - - hello", -1, by decide, by decide, by decide,
        ⟨b!"-", b!"1", rfl, by decide, by decide +kernel, Or.inr (by decide +kernel)⟩, by decide, by decide, Or.inl (by decide)⟩))
example : CrashesOn True b!"0099 <0>1 - - - - - -" :=
  .truncated trivial ⟨b!"0099", b!"<0>1 - - - - - -", 99, by decide, by decide, by decide,
    ⟨[], b!"0099", rfl, by decide, by decide +kernel, Or.inl (by decide +kernel)⟩, by decide, by decide,
    [b!"<0>1", b!"-", b!"-", b!"-", b!"-", b!"-"], [], .dash (fs := [b!"<0>1", b!"-", b!"-", b!"-", b!"-", b!"-"]) rfl (by decide)⟩
end Syslog5424
