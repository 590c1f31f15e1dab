import Verif.Spec.Wire
import Verif.Props.Tokenizer
import Verif.Props.Receiver
/-! # Property C79: everything received is cut from the wire -/
namespace Syslog5424
open Spec Transport Tok

theorem atoi_readsInt {hdr : Bytes} {l : Int} : atoi hdr = some l ↔ ReadsInt hdr l ∧ -(2 ^ 63) ≤ l ∧ l < 2 ^ 63 := by
  have core : ∀ (ds : Bytes) (neg : Bool), (if (ds.isEmpty || !ds.all isDigit) = true then none
      else if neg = true then (if decVal ds ≤ 2 ^ 63 then some (-(decVal ds : Int)) else none)
      else if decVal ds < 2 ^ 63 then some (decVal ds : Int) else none) = some l ↔
      ds ≠ [] ∧ (∀ d ∈ ds, IsDigit d) ∧ (l = if neg then -((value ds : Nat) : Int) else (value ds : Nat)) ∧
        -(2 ^ 63) ≤ l ∧ l < 2 ^ 63 := by
    intro ds neg
    by_cases hd : (ds.isEmpty || !ds.all isDigit) = true
    · rw [if_pos hd]
      refine Iff.intro (fun h => by cases h) ?_
      intro ⟨h1, h2, _⟩
      exfalso
      simp only [Bool.or_eq_true, List.isEmpty_iff, Bool.not_eq_true'] at hd
      rcases hd with hd | hd
      · exact h1 hd
      · have : ds.all isDigit = true := List.all_eq_true.mpr fun d hm => (isDigit_iff d).mpr (h2 d hm)
        rw [this] at hd; cases hd
    rw [if_neg hd]
    simp only [Bool.or_eq_true, List.isEmpty_iff, Bool.not_eq_true', not_or, Bool.not_eq_false] at hd
    have hdig : ∀ d ∈ ds, IsDigit d := fun d hm => (isDigit_iff d).mp (List.all_eq_true.mp hd.2 d hm)
    rw [← decVal_eq_value]
    cases neg with
    | true =>
      simp only [if_true]
      constructor
      · intro h
        split at h
        · simp only [Option.some.injEq] at h; exact ⟨hd.1, hdig, by omega, by omega, by omega⟩
        · cases h
      · intro ⟨_, _, h3, h4, h5⟩
        rw [if_pos (by omega), h3]
    | false =>
      simp only [Bool.false_eq_true, if_false]
      constructor
      · intro h
        split at h
        · simp only [Option.some.injEq] at h; exact ⟨hd.1, hdig, by omega, by omega, by omega⟩
        · cases h
      · intro ⟨_, _, h3, h4, h5⟩
        rw [if_pos (by omega), h3]
  have dig : ∀ {x : UInt8}, IsDigit x → x ≠ 45 ∧ x ≠ 43 := by
    intro x hx
    constructor <;> rintro rfl <;> revert hx <;> decide
  unfold atoi
  simp only
  cases hdr with
  | nil =>
    refine ⟨fun h => ?_, fun ⟨⟨sign, ds, h1, h2, _⟩, _⟩ => ?_⟩
    · simp at h
    · exact absurd (List.append_eq_nil_iff.mp h1.symm).2 h2
  | cons x r =>
    by_cases h45 : x = 45
    · subst h45
      refine (core r true).trans ⟨fun ⟨a, b, c, d⟩ => ⟨⟨b!"-", r, rfl, a, b, Or.inr ⟨rfl, c⟩⟩, d⟩, ?_⟩
      rintro ⟨⟨sign, ds, h1, h2, h3, h4⟩, h5⟩
      rcases h4 with ⟨rfl | rfl, h4⟩ | ⟨rfl, h4⟩
      · rw [List.nil_append] at h1; subst h1
        exact absurd rfl (dig (h3 45 (by simp))).1
      · simp only [List.cons_append, List.nil_append, List.cons.injEq] at h1; exact absurd h1.1 (by decide)
      · simp only [List.cons_append, List.nil_append, List.cons.injEq, true_and] at h1
        subst h1; exact ⟨h2, h3, h4, h5⟩
    · have n45 : ((some x : Option UInt8) == some 45) = false := by simpa using h45
      by_cases h43 : x = 43
      · subst h43
        refine (core r false).trans ⟨fun ⟨a, b, c, d⟩ => ⟨⟨b!"+", r, rfl, a, b, Or.inl ⟨Or.inr rfl, c⟩⟩, d⟩, ?_⟩
        rintro ⟨⟨sign, ds, h1, h2, h3, h4⟩, h5⟩
        rcases h4 with ⟨rfl | rfl, h4⟩ | ⟨rfl, h4⟩
        · rw [List.nil_append] at h1; subst h1
          exact absurd rfl (dig (h3 43 (by simp))).2
        · simp only [List.cons_append, List.nil_append, List.cons.injEq, true_and] at h1
          subst h1; exact ⟨h2, h3, h4, h5⟩
        · simp only [List.cons_append, List.nil_append, List.cons.injEq] at h1; exact absurd h1.1 (by decide)
      · have n43 : ((some x : Option UInt8) == some 43) = false := by simpa using h43
        rw [List.head?_cons, n45, n43]
        refine (core (x :: r) false).trans ⟨fun ⟨a, b, c, d⟩ => ⟨⟨[], x :: r, rfl, a, b, Or.inl ⟨Or.inl rfl, c⟩⟩, d⟩, ?_⟩
        rintro ⟨⟨sign, ds, h1, h2, h3, h4⟩, h5⟩
        rcases h4 with ⟨rfl | rfl, h4⟩ | ⟨rfl, h4⟩
        · rw [List.nil_append] at h1; subst h1
          exact ⟨h2, h3, h4, h5⟩
        · simp only [List.cons_append, List.nil_append, List.cons.injEq] at h1; exact absurd h1.1 h43
        · simp only [List.cons_append, List.nil_append, List.cons.injEq] at h1; exact absurd h1.1 h45

theorem parseBody_conveys (p rest : Slice) (eof : Bool) {m : MsgImm} {r : Option Slice} {e : Option Err}
    (h : parseBody p (some rest) none (some .rfc5425) eof = .ret (m, r, e)) : Conveys p.vis m e := by
  have comp : ∀ {fs xs o idx txt}, Layout p.vis fs xs o idx txt → m = ⟨p, idx, txt⟩ ∧ e = none := by
    intro fs xs o idx txt hL
    rw [parseBody_complete (some .rfc5425) eof (some rest) none p hL] at h
    simp only [parseReturn, Out.ret.injEq, Prod.mk.injEq] at h
    exact ⟨h.1.symm, h.2.2.symm⟩
  refine ⟨?_, ?_, ?_, ?_⟩
  · intro pri ts host app pid mid xs o hf
    obtain ⟨idx, txt, hL⟩ := hf.layout
    obtain ⟨rfl, rfl⟩ := comp hL
    obtain ⟨a, b, c, d, e, f, h1, h2⟩ := (Layout.view hL).readsAs
    simp only [List.cons.injEq, and_true] at h1
    obtain ⟨rfl, rfl, rfl, rfl, rfl, rfl⟩ := h1
    exact ⟨rfl, rfl, h2⟩
  · intro fs xs o els hf hx reg g hg
    obtain ⟨idx, txt, hL⟩ := hf.layout
    obtain ⟨rfl, rfl⟩ := comp hL
    exact (Layout.view hL).elements hx reg g hg
  · intro hn
    rcases parseBody_rest p rest eof with ⟨e', h'⟩ | ⟨fs, xs, o, idx, txt, hL, _⟩
    · rw [h] at h'
      simp only [Out.ret.injEq, Prod.mk.injEq] at h'
      obtain ⟨rfl, _, rfl⟩ := h'
      exact ⟨by simp, rfl⟩
    · exact absurd ⟨_, _, _, hL.frame⟩ hn
  · intro e' hw
    rw [parseBody_of_wrong (some .rfc5425) eof (some rest) none p hw] at h
    simp only [dispatchError, Out.ret.injEq, Prod.mk.injEq] at h
    exact h.2.2.symm

/-- One call of `Parse` that gives a rest has cut one frame from the front of the data. -/
theorem parse_piece {t : Transport} {buf : Slice} {eof : Bool} {m : MsgImm} {r : Slice} {e : Option Err}
    (hcap : buf.cap < 2 ^ 63) (h : parse (some buf) (some t) eof = .ret (m, some r, e)) :
    ∃ piece, buf.vis = piece ++ r.vis ∧ r.spare = buf.spare ∧ TakenFrom t piece m e := by
  have term : ∀ c, t.term = some c → terminator t = some c →
      ∃ piece, buf.vis = piece ++ r.vis ∧ r.spare = buf.spare ∧ TakenFrom t piece m e := by
    intro c hc hc'
    rcases parse_term_cases hc buf eof with ⟨_, h'⟩ | ⟨_, h'⟩ | ⟨_, _, _, _, h'⟩ | ⟨_, _, _, _, _, _, _, h'⟩ |
      ⟨_, _, _, _, _, _, _, _, _, _, h'⟩ | ⟨fs, xs, idx, pre, y, p, q, hL, hcp, hb, hV, h'⟩
    · rw [h'] at h; simp at h
    · rw [h'] at h; simp at h
    · rw [h'] at h; simp at h
    · rw [h'] at h; simp at h
    · rw [h'] at h; simp at h
    · rw [h'] at h
      simp only [Out.ret.injEq, Prod.mk.injEq, Option.some.injEq] at h
      obtain ⟨rfl, rfl, rfl⟩ := h
      refine ⟨pre ++ y :: p ++ [c], by rw [hb]; simp, rfl, .ended hc' ?_⟩
      have hv := hV p (c :: q ++ buf.spare)
      obtain ⟨sd, hs, hsd⟩ := hv.string
      have hraw := hv.raw
      have hel := hv.elem
      obtain ⟨pri, ts, host, app, pid, mid, rfl, hread⟩ := hv.readsAs
      refine ⟨pri, ts, host, app, pid, mid, sd, y, p, hraw, ?_, hcp, ?_, rfl, rfl, by simpa using hread⟩
      · have : pre ++ y :: p = headerText [pri, ts, host, app, pid, mid] ++ sd ++ y :: p := hs
        rw [this]; simp
      · rcases hsd with ⟨h1, _, h3⟩ | h1
        · left
          refine ⟨h1, ?_⟩
          rcases h3 with h3 | ⟨t', h3⟩
          · cases h3
          · simp only [Option.some.injEq, List.cons.injEq] at h3; exact h3.1
        · exact Or.inr ⟨xs, h1, hel⟩
  cases t with
  | zeroEnded => exact term _ rfl rfl
  | lfEnded => exact term _ rfl rfl
  | rfc5425 =>
    unfold parse at h
    simp only at h
    rcases prefixStrip_cases buf eof hcap with ⟨_, hp⟩ | ⟨_, _, hp⟩ | ⟨n, _, _, _, _, hp⟩ |
      ⟨n, l, h20, hn, hi, ha, hr, hp⟩ | ⟨n, l, h20, hn, hi, ha, hr, hlt, hp⟩ | ⟨n, k, h20, hn, hi, ha, hk, hp⟩
    · rw [hp] at h; simp at h
    · rw [hp] at h
      have : parseBody ⟨[], []⟩ none (some .noHeader) (some .rfc5425) eof = .ret (MsgImm.zero, none, some .noHeader) := rfl
      simp [this] at h
    · rw [hp] at h
      have : parseBody ⟨[], []⟩ none (some .invHeader) (some .rfc5425) eof = .ret (MsgImm.zero, none, some .invHeader) := rfl
      simp [this] at h
    · rw [hp] at h; simp at h
    · rw [hp] at h
      cases eof with
      | false => simp at h
      | true =>
        simp only [if_true, Out.ret_bind] at h
        rw [if_neg (by simp)] at h
        rcases parseBody_truncated ⟨buf.vis.drop (n + 1), buf.spare⟩ with h' | ⟨fs, xs, idx, hL, h'⟩ | ⟨_, _, _, _, _, _, h'⟩ |
              ⟨fs, xs, y, tx, idx, txt, htx, hL, h'⟩ <;> rw [Slice.ofNil_some, h'] at h <;> simp at h
    · rw [hp] at h
      simp only [Out.ret_bind] at h
      rw [if_neg (by simp), Slice.ofNil_some] at h
      obtain ⟨_, _, _, he, _⟩ := framed_of h20 hn hi ha
      have hlen : ((buf.vis.take (n + 1 + k)).drop (n + 1)).length = k := by
        simp only [Slice.len] at hk
        simp only [List.length_drop, List.length_take]; omega
      have hrest : r = ⟨buf.vis.drop (n + 1 + k), buf.spare⟩ := by
        rcases parseBody_rest ⟨(buf.vis.take (n + 1 + k)).drop (n + 1), buf.vis.drop (n + 1 + k) ++ buf.spare⟩
          ⟨buf.vis.drop (n + 1 + k), buf.spare⟩ eof with ⟨e', h'⟩ | ⟨fs, xs, o, idx, txt, hL, h'⟩ <;>
        · rw [h'] at h
          simp only [Out.ret.injEq, Prod.mk.injEq, Option.some.injEq] at h
          exact h.2.1.symm
      refine ⟨buf.vis.take n ++ b!" " ++ (buf.vis.take (n + 1 + k)).drop (n + 1), ?_, by rw [hrest], ?_⟩
      · rw [hrest]
        conv => lhs; rw [he]
        simp only [List.append_assoc]
        congr 2
        rw [List.drop_take, Nat.add_sub_cancel_left, ← List.drop_drop (i := k) (j := n + 1), List.take_append_drop]
      · exact .counted (by rw [hlen]; exact (atoi_readsInt.mp ha).1) (parseBody_conveys _ _ _ h)

theorem parseLoop_pieces {t : Transport} {eof : Bool} (fuel : Nat) : ∀ {data : Slice} {out0 out : List (MsgImm × Option Err)}
    {data' : Slice}, data.cap < 2 ^ 63 → parseLoop t eof fuel data out0 = .ret (data', out) →
    ∃ pieces ds, data.vis = pieces.flatten ++ data'.vis ∧ out = out0 ++ ds ∧
      Each (fun p d => TakenFrom t p d.1 d.2) pieces ds := by
  induction fuel with
  | zero => intro data out0 out data' _ h; simp [parseLoop] at h
  | succ fuel ih =>
    intro data out0 out data' hcap h
    unfold parseLoop at h
    cases hp : parse (some data) (some t) eof with
    | panic => rw [hp] at h; simp at h
    | hang => rw [hp] at h; simp at h
    | ret x =>
      obtain ⟨m, rest, e⟩ := x
      rw [hp] at h
      simp only [Out.ret_bind] at h
      cases rest with
      | none =>
        simp only [Out.pure_eq, Out.ret.injEq, Prod.mk.injEq] at h
        obtain ⟨rfl, rfl⟩ := h
        exact ⟨[], [], by simp, by simp, .nil⟩
      | some r =>
        obtain ⟨piece, h1, h2, h3⟩ := parse_piece hcap hp
        simp only at h
        by_cases h0 : r.len = 0
        · rw [if_pos h0] at h
          simp only [Out.pure_eq, Out.ret.injEq, Prod.mk.injEq] at h
          obtain ⟨rfl, rfl⟩ := h
          exact ⟨[piece], [(m, e)], by simpa using h1, rfl, .cons h3 .nil⟩
        · rw [if_neg h0] at h
          have hc : r.cap < 2 ^ 63 := by
            simp only [Slice.cap, h1, h2, List.length_append] at hcap ⊢; omega
          obtain ⟨pieces, ds, g1, g2, g3⟩ := ih hc h
          exact ⟨piece :: pieces, (m, e) :: ds, by rw [h1, g1]; simp, by rw [g2]; simp, .cons h3 g3⟩

/-- A read, in terms of the bytes that wait before and after it and of what is delivered. -/
theorem step_pieces {t : Transport} {s s' : State} {r : Read} {b : Bool} (hm : Mem s) (hf : r.Fits s)
    (hs : step t s r = .ret (b, s')) :
    ∃ pieces ds, s.pending ++ r.data = pieces.flatten ++ s'.pending ∧ s'.out = s.out ++ ds ∧
      Each (fun p d => TakenFrom t p d.msg d.err) pieces ds := by
  have hsz := hm.size
  have hft := hm.fit
  have hpl := hm.pending_length
  simp only [Read.Fits, State.room] at hf
  have hb : s.off + s.done + (r.data ++ r.scratch).length ≤ s.arr.length := by simp only [List.length_append]; omega
  have htake := overwrite_take hb
  have hdropw := overwrite_drop hb
  have hbuf : (overwrite s.arr (s.off + s.done) (r.data ++ r.scratch)).drop s.off =
      s.pending ++ r.data ++ (r.scratch ++ s.arr.drop (s.off + s.done + (r.data ++ r.scratch).length)) := by
    have e1 : (overwrite s.arr (s.off + s.done) (r.data ++ r.scratch)) =
        s.arr.take (s.off + s.done) ++ (r.data ++ r.scratch ++ s.arr.drop (s.off + s.done + (r.data ++ r.scratch).length)) := by
      rw [← hdropw, ← htake, List.take_append_drop]
    rw [e1, List.drop_append_of_le_length (by simp; omega), List.drop_take]
    simp only [State.pending, Nat.add_sub_cancel_left, List.append_assoc]
  have hquiet : r.data = [] → ∀ e : Nat,
      (State.mk s.old (overwrite s.arr (s.off + s.done) (r.data ++ r.scratch)) s.off s.done s.out e).pending = s.pending := by
    intro h0 e
    simp only [State.pending]
    rw [hbuf, h0, List.append_nil, List.take_left' hpl]
    rfl
  unfold step at hs
  simp only at hs
  split at hs
  · rename_i h0
    have h0 : r.data = [] := by simpa using h0.1
    simp only [Out.ret.injEq, Prod.mk.injEq] at hs
    obtain ⟨rfl, rfl⟩ := hs
    exact ⟨[], [], by rw [hquiet h0, h0]; simp, by simp, .nil⟩
  split at hs
  · rename_i h0
    have h0 : r.data = [] := by simpa using h0
    simp only [Out.ret.injEq, Prod.mk.injEq] at hs
    obtain ⟨rfl, rfl⟩ := hs
    exact ⟨[], [], by rw [hquiet h0, h0]; simp, by simp, .nil⟩
  generalize he : (if r.err = ReadErr.other then s.errs + 1 else s.errs) = errs at *
  generalize ha : overwrite s.arr (s.off + s.done) (r.data ++ r.scratch) = arr at *
  have hal : arr.length = readBuffer := by rw [← ha, overwrite_length hb, hsz]
  simp only [List.length_append] at hb
  have hsub := Slice.sub_nat (s := Slice.exact (arr.drop s.off)) (i := 0) (j := r.data.length + s.done) (by omega)
    (by simp [Slice.exact]; omega)
  simp only [Slice.exact, List.drop_zero, List.append_nil] at hsub
  rw [show ((0 : Nat) : Int) = 0 from rfl] at hsub
  simp only [Slice.exact] at hs
  rw [hsub] at hs
  simp only [Out.ret_bind] at hs
  have hdata : (arr.drop s.off).take (r.data.length + s.done) = s.pending ++ r.data := by
    rw [hbuf, List.take_left' (by simp; omega)]
  cases hp : parseLoop t (decide (r.err = ReadErr.eof)) (Slice.len ⟨List.take (r.data.length + s.done) (List.drop s.off arr),
      List.drop (r.data.length + s.done) (List.drop s.off arr)⟩ + 1) ⟨List.take (r.data.length + s.done) (List.drop s.off arr),
      List.drop (r.data.length + s.done) (List.drop s.off arr)⟩ [] with
  | panic => rw [hp] at hs; simp at hs
  | hang => rw [hp] at hs; simp at hs
  | ret x =>
    obtain ⟨data', ds⟩ := x
    rw [hp] at hs
    simp only [Out.ret_bind, Out.pure_eq, Out.ret.injEq, Prod.mk.injEq] at hs
    obtain ⟨rfl, rfl⟩ := hs
    have hcap : Slice.cap ⟨List.take (r.data.length + s.done) (List.drop s.off arr),
      List.drop (r.data.length + s.done) (List.drop s.off arr)⟩ < 2 ^ 63 := by
      simp only [Slice.cap, List.length_take, List.length_drop, hal, readBuffer]; omega
    obtain ⟨pieces, ds', g1, g2, g3⟩ := parseLoop_pieces _ hcap hp
    rw [List.nil_append] at g2
    subst g2
    simp only at g1
    rw [hdata] at g1
    refine ⟨pieces, ds.map fun d => ⟨s.old.length, d.1, d.2⟩, ?_, ?_, Spec.Each.map g3⟩
    · rw [g1]
      congr 1
      have hll := congrArg List.length g1
      simp only [List.length_append, hpl] at hll
      generalize hn : pieces.flatten = fl at *
      have hnn : r.data.length + s.done - data'.vis.length = fl.length := by omega
      have hlb : (arr.drop (s.off + fl.length)) = data'.vis ++ (arr.drop (s.off + fl.length + data'.vis.length)) := by
        have e1 : arr.drop s.off = fl ++ data'.vis ++ (arr.drop s.off).drop (fl.length + data'.vis.length) := by
          rw [← g1, ← hdata, show fl.length + data'.vis.length = r.data.length + s.done by omega, List.take_append_drop]
        rw [← List.drop_drop, e1, List.append_assoc, List.drop_left, List.drop_drop]
        simp [Nat.add_assoc]
      unfold Tok.advance
      simp only [Slice.len, hnn]
      split
      · simp only [State.pending, List.drop_zero]
        rw [hlb, List.append_assoc, List.take_left]
      · simp only [State.pending]
        rw [hlb, List.take_left]
    · unfold Tok.advance; simp only; split <;> rfl

theorem run_pieces {t : Transport} {s : State} {rs : List Read} {o : Out (Bool × State)} (h : Run t s rs o) :
    Mem s → ∀ b s', o = .ret (b, s') → ∃ pieces ds, s.pending ++ arrived rs = pieces.flatten ++ s'.pending ∧
      s'.out = s.out ++ ds ∧ Each (fun p d => TakenFrom t p d.msg d.err) pieces ds := by
  induction h with
  | nil => intro hm b s' e; simp at e; rw [← e.2]; exact ⟨[], [], by simp [arrived], by simp, .nil⟩
  | cons hf hs _ ih =>
    intro hm b s' e
    obtain ⟨p1, d1, h1, h2, h3⟩ := step_pieces hm hf hs
    obtain ⟨p2, d2, g1, g2, g3⟩ := ih (step_mem hm hf hs).1 b s' e
    refine ⟨p1 ++ p2, d1 ++ d2, ?_, by rw [g2, h2]; simp, h3.append g3⟩
    rw [arrived, List.flatMap_cons, ← List.append_assoc, h1, List.append_assoc]
    rw [arrived] at g1
    rw [g1]; simp
  | last hf hs _ =>
    intro hm b s' e
    rw [e] at hs
    obtain ⟨p1, d1, h1, h2, h3⟩ := step_pieces hm hf hs
    exact ⟨p1, d1, by simpa [arrived] using h1, h2, h3⟩

/-- **C79.** Whatever the peer sent, however it was cut into reads, with every transport: the bytes that arrived are
the frames of the pairs delivered, in order and one behind the other, followed by the bytes that wait. So every message
and every error delivered comes from a frame of its own, no byte is used twice, and none is skipped. -/
theorem C79_cut_from_wire (t : Transport) (reads : List Read) (b : Bool) (s : State)
    (h : Run t init reads (.ret (b, s))) :
    ∃ pieces, arrived reads = pieces.flatten ++ s.pending ∧
      Each (fun piece d => TakenFrom t piece d.msg d.err) pieces s.out := by
  obtain ⟨pieces, ds, h1, h2, h3⟩ := run_pieces h mem_init b s rfl
  rw [pending_init, List.nil_append] at h1
  rw [show init.out = [] from rfl, List.nil_append] at h2
  exact ⟨pieces, h1, by rw [h2]; exact h3⟩

/-- C79 at the interface: what `Receive` has returned from connection `i` was cut, frame by frame, from the front of the
bytes that arrived on that connection. -/
theorem C79_receive (t : Transport) (lenQueue : Nat) (es : List Recv.Event) (s : Recv.State)
    (h : Recv.run t lenQueue Recv.init es = some s) (hc : s.crashed = false) (i : Nat) (c : Recv.Conn)
    (hi : s.conns[i]? = some c) :
    ∃ pieces, pieces.flatten <+: arrived (Spec.readsOf i es) ∧
      Each (fun piece d => TakenFrom t piece d.msg d.err) pieces (Spec.ofConn i s.got) := by
  obtain ⟨b, tok, h1, h2⟩ := C44_order t lenQueue es s h hc i c hi
  obtain ⟨pieces, h3, h4⟩ := C79_cut_from_wire t _ b tok h1
  rw [← h2, List.append_assoc] at h4
  have split : ∀ (xs ys : List Delivered) (ps : List Bytes),
      Each (fun piece (d : Delivered) => TakenFrom t piece d.msg d.err) ps (xs ++ ys) →
      ∃ p1 p2, ps = p1 ++ p2 ∧ Each (fun piece (d : Delivered) => TakenFrom t piece d.msg d.err) p1 xs := by
    intro xs
    induction xs with
    | nil => intro ys ps _; exact ⟨[], ps, rfl, .nil⟩
    | cons x xs ih =>
      intro ys ps h
      rw [List.cons_append] at h
      cases h with
      | cons h1 h2 =>
        obtain ⟨p1, p2, rfl, g⟩ := ih ys _ h2
        exact ⟨_ :: p1, p2, rfl, .cons h1 g⟩
  obtain ⟨p1, p2, rfl, g⟩ := split _ _ _ h4
  exact ⟨p1, by rw [h3, List.flatten_append, List.append_assoc]; exact List.prefix_append _ _, g⟩

/-- Junk, then two messages: the length header with a sign and leading zeros is read, its malformed payload gives an
error, the message behind it is received, and the rest waits. -/
example : (match parseLoop .rfc5425 false 60 ⟨b!"+007 garbage27 <0>1 - h a - - - hello you 12 <0>1", []⟩ [] with
    | .ret (rest, out) => (rest.vis, out.map fun d => (d.2.isSome, d.1.string))
    | _ => ([], [])) = (b!"12 <0>1", [(true, []), (false, b!"<0>1 - h a - - - hello you ")]) := by decide +kernel
example : TakenFrom .rfc5425 b!"+007 garbage" MsgImm.zero (some .noHeader) → ReadsInt b!"+007" 7 := fun _ =>
  ⟨b!"+", b!"007", rfl, by decide, by decide +kernel, Or.inl (by decide +kernel)⟩
/-- The hypothesis of C79 is met by every read that fits and does not crash the program. -/
example : ∃ s, Run .rfc5425 init ((stream .rfc5425 samplePayloads).map fun x => { data := [x] }) (.ret (true, s)) ∧
    ∃ pieces, Each (fun piece d => TakenFrom .rfc5425 piece d.msg d.err) pieces s.out := by
  obtain ⟨s, h⟩ := C42_progress_partial samplePayloads (by decide +kernel) _ (Nat.le_refl _)
  rw [List.take_length] at h
  obtain ⟨pieces, _, h2⟩ := C79_cut_from_wire _ _ _ _ h
  exact ⟨s, h, pieces, h2⟩

/-! ## C61 and C42 on arbitrary bytes -/

/-- C61 is violated with the terminated transports: nothing malformed is ever reported. Whatever arrives, every pair
delivered is a message without error. -/
theorem C61_lines_silent_violated (t : Transport) (ht : t = .lfEnded ∨ t = .zeroEnded) (reads : List Read) (b : Bool)
    (s : State) (h : Run t init reads (.ret (b, s))) : ∀ d ∈ s.out, d.err = none := by
  obtain ⟨pieces, h1, h2⟩ := C79_cut_from_wire t reads b s h
  clear h1
  generalize s.out = out at h2
  induction h2 with
  | nil => simp
  | cons hd _ ih =>
    intro d hm
    rw [List.mem_cons] at hm
    rcases hm with rfl | hm
    · generalize d.err = e at hd
      generalize d.msg = m at hd
      cases hd with
      | counted => rcases ht with h | h <;> cases h
      | ended _ hl => obtain ⟨_, _, _, _, _, _, _, _, _, _, _, _, _, h, _⟩ := hl; exact h
    · exact ih d hm

/-- C61 is violated with the terminated transports: a line of garbage without space is not an error, it swallows the
message behind it. The two lines are delivered as one message, whose first field is the garbage, the terminator and
the PRI. -/
theorem C61_merged_violated (t : Transport) (c : UInt8) (ht : t = .lfEnded ∧ c = 10 ∨ t = .zeroEnded ∧ c = 0)
    (g : Bytes) (hg : (32 : UInt8) ∉ g) (fs : List Bytes) (text : Bytes) (hl : Line c fs text)
    (hlen : (g ++ [c] ++ (lineText (fs, text) ++ [c])).length ≤ 65536) :
    ∃ s d, Run t init [{ data := g ++ [c] ++ (lineText (fs, text) ++ [c]) }] (.ret (true, s)) ∧ s.out = [d] ∧
      d.err = none ∧ d.msg.string = g ++ [c] ++ lineText (fs, text) ∧ s.pending = [] := by
  have hterm : t.term = some c := by rcases ht with ⟨rfl, rfl⟩ | ⟨rfl, rfl⟩ <;> rfl
  have hcs : (32 : UInt8) ≠ c := by rcases ht with ⟨_, rfl⟩ | ⟨_, rfl⟩ <;> decide
  obtain ⟨h6, hraw, htext⟩ := hl
  cases fs with
  | nil => simp at h6
  | cons pri fr =>
    have hp := (hraw pri (by simp)).1
    have h6' : ((g ++ [c] ++ pri) :: fr).length = 6 := by simpa using h6
    have hraw' : ∀ f ∈ (g ++ [c] ++ pri) :: fr, RawField f := by
      intro f hf
      rw [List.mem_cons] at hf
      rcases hf with rfl | hf
      · refine ⟨by simp, ?_⟩
        have := hp.2
        simp [hg, hcs, this]
      · exact (hraw f (by simp [hf])).1
    have hdat : g ++ [c] ++ (lineText (pri :: fr, text) ++ [c]) =
        headerText ((g ++ [c] ++ pri) :: fr) ++ [DASH, SP] ++ (text ++ c :: []) := by
      simp [lineText, headerText]
    obtain ⟨idx, txt, hL⟩ : ∃ idx txt, Layout _ _ _ _ idx txt := ⟨_, _, Layout.dashText (t := text ++ c :: []) h6' hraw'⟩
    rw [← hdat] at hL
    have hf : Read.Fits { data := g ++ [c] ++ (lineText (pri :: fr, text) ++ [c]) } init :=
      fits_init (by simpa using hlen)
    obtain ⟨arr, spare, errs, _, hl1, hst⟩ := step_eq (t := t) mem_init hf (by simp)
    rw [pending_init, List.nil_append] at hst
    obtain ⟨pre, g1, g2, g3⟩ := parse_term_frame hterm ⟨_, spare⟩ false hL htext
    have hpre : pre ++ SP :: text = g ++ [c] ++ lineText (pri :: fr, text) := by
      have : (pre ++ SP :: text) ++ [c] = (g ++ [c] ++ lineText (pri :: fr, text)) ++ [c] := by
        have := g1.symm; simp only at this; rw [List.append_assoc (g ++ [c])]; rw [← this]; simp
      exact List.append_cancel_right this
    have hloop : parseLoop t false ((g ++ [c] ++ (lineText (pri :: fr, text) ++ [c])).length + 1)
        ⟨g ++ [c] ++ (lineText (pri :: fr, text) ++ [c]), spare⟩ [] =
        .ret (⟨[], spare⟩, [(⟨⟨pre ++ SP :: text, c :: [] ++ spare⟩, idx, txt⟩, none)]) := by
      unfold parseLoop
      rw [g3]
      rfl
    simp only [reduceCtorEq, decide_false] at hst
    rw [hloop] at hst
    simp only [Out.ret_bind, Out.pure_eq, Bool.not_false, List.map_cons, List.map_nil] at hst
    refine ⟨_, ⟨0, ⟨⟨pre ++ SP :: text, c :: [] ++ spare⟩, idx, txt⟩, none⟩, .cons hf hst .nil, ?_, rfl, hpre, ?_⟩
    · unfold Tok.advance; simp only; split <;> rfl
    · unfold Tok.advance; simp only; split <;> simp [State.pending]

/-- The hypotheses are met. -/
example : (32 : UInt8) ∉ b!"garbage" ∧ Line 10 [b!"<34>1", b!"-", b!"host", b!"su", b!"-", b!"ID47"] b!"a ] text" ∧
    b!"garbage" ++ [10] ++ lineText ([b!"<34>1", b!"-", b!"host", b!"su", b!"-", b!"ID47"], b!"a ] text") =
      b!"garbage\n<34>1 - host su - ID47 - a ] text" := by decide +kernel

theorem run_full {t : Transport} {s : State} {rs : List Read} {o : Out (Bool × State)} (h : Run t s rs o) :
    s.room = 0 → s.off + s.done ≤ s.arr.length → arrived rs = [] := by
  have nodata : ∀ {s : State} {r : Read}, r.Fits s → s.room = 0 → r.data = [] ∧ r.scratch = [] := by
    intro s r hf h0
    simp only [Read.Fits, h0] at hf
    exact ⟨List.length_eq_zero_iff.mp (by omega), List.length_eq_zero_iff.mp (by omega)⟩
  induction h with
  | nil => intros; rfl
  | @cons s s' r rs o hf hs _ ih =>
    intro h0 hle
    obtain ⟨hd, hsc⟩ := nodata hf h0
    have hx : s'.room = 0 ∧ s'.off + s'.done ≤ s'.arr.length := by
      unfold step at hs
      simp only [hd, hsc, List.append_nil, List.length_nil, if_true, true_and] at hs
      have hov : overwrite s.arr (s.off + s.done) [] = s.arr := by simp [overwrite]
      rw [hov] at hs
      split at hs <;> simp only [Out.ret.injEq, Prod.mk.injEq] at hs <;> rw [← hs.2] <;> exact ⟨h0, hle⟩
    have := ih hx.1 hx.2
    simp only [arrived, List.flatMap_cons, hd, List.nil_append] at this ⊢
    exact this
  | last hf hs _ =>
    intro h0 _
    simp [arrived, (nodata hf h0).1]

/-- C42: exactly when a connection is stuck, for any transport and whatever was sent: it can never receive another byte
if and only if its buffer has no room left, and then at least 500 bytes wait in it. So a peer whose frames, complete or
not, never keep 500 bytes waiting is never stuck. -/
theorem C42_stuck_exactly (t : Transport) (reads : List Read) (s : State) (h : Run t init reads (.ret (true, s))) :
    ((∀ more o, Run t s more o → arrived more = []) ↔ s.room = 0) ∧ (s.room = 0 → 500 ≤ s.pending.length) := by
  have hm := (run_mem h mem_init _ _ rfl).1
  have hsz := hm.size
  have hbig := hm.big
  have hpl := hm.pending_length
  refine ⟨⟨?_, ?_⟩, ?_⟩
  · intro hall
    refine Classical.byContradiction fun h0 => ?_
    have := hall [{ data := [0] }] _ (Run.single (by simp only [Read.Fits, List.length_singleton, List.length_nil]; omega))
    simp [arrived] at this
  · intro h0 more o hr
    exact run_full hr h0 (by rw [hsz]; exact hm.fit)
  · intro h0
    unfold State.room at h0
    omega

/-- C42 (partial): on a stream of messages without structured data, framed with the LF or the NUL transport, in lines of at
most 500 bytes, there is always room for the next byte, wherever the stream is cut (unless the program crashed,
`C41_crashes_exactly`). Missing: longer lines, as in `C42_stall_violated`, and structured data. -/
theorem C42_room_lines_partial (t : Transport) (c : UInt8) (ht : t = .lfEnded ∧ c = 10 ∨ t = .zeroEnded ∧ c = 0)
    (ls : List (List Bytes × Bytes)) (hls : ∀ l ∈ ls, Line c l.1 l.2 ∧ (t.encode (lineText l)).length ≤ 500)
    (reads : List Read) (b : Bool) (s : State) (hrun : Run t init reads (.ret (b, s)))
    (hst : arrived reads <+: stream t (ls.map lineText)) : 0 < s.room := by
  have hterm : t.term = some c := by rcases ht with ⟨rfl, rfl⟩ | ⟨rfl, rfl⟩ <;> rfl
  have henc : ∀ d, t.encode d = d ++ [c] := by intro d; rcases ht with ⟨rfl, rfl⟩ | ⟨rfl, rfl⟩ <;> rfl
  have hmap : ∀ l : List (List Bytes × Bytes), (l.map lineText).flatMap t.encode = l.flatMap (fun l => lineText l ++ [c]) := by
    intro l; rw [List.flatMap_map]; congr 1; funext x; exact henc _
  have hcut : NoCutAfterDash c ls reads := by
    refine Classical.byContradiction fun h => ?_
    have := (C41_crashes_exactly t c ht ls (fun l hl => (hls l hl).1) reads _ hrun hst).mpr h
    cases this
  obtain ⟨b', s', h1, h2, h3, k, _, h4⟩ := run_flow (enc := fun l => lineText l ++ [c])
    (Q := fun l m e => Conveys (lineText l) m e)
    (ready := fun l b => (lineText l ++ [c]).length ≤ b.length) hrun (as := ls) (R := []) (k := 0)
    mem_init flow_init (by rw [List.nil_append, ← hmap]; exact hst) (by
      intro pre r post e h0
      refine ⟨_, cuts_line hterm ls (fun l hl => (hls l hl).1) _, ?_⟩
      rintro k l b hk hb _ _ rfl
      exact hcut pre r post e k l hk (by rw [List.nil_append] at hb; exact hb))
  simp only [Out.ret.injEq, Prod.mk.injEq] at h1
  obtain ⟨rfl, rfl⟩ := h1
  have hsz := h2.size
  have hbig := h2.big
  have hpl := h2.pending_length
  unfold State.room
  rcases h4.wait with h | ⟨a, ha, hr⟩
  · rw [h, List.length_nil] at hpl; omega
  · have := (hls a (List.mem_of_getElem? ha)).2
    rw [henc] at this
    omega

example : ∀ l ∈ sampleLines, Line 10 l.1 l.2 ∧ (lfEnded.encode (lineText l)).length ≤ 500 := by decide +kernel

end Syslog5424
