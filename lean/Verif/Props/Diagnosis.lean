import Verif.Props.Decoder
/-! # Property C81: a parse error says what is wrong, and where -/
namespace Syslog5424
open Spec Transport Tok

/-- **C81.** Without transport, `Parse` reports the error `e` exactly when `e` is what is wrong with the bytes; it then
returns no message and no rest. -/
theorem C81_nil_exactly (data : Slice) (atEOF : Bool) (e : Err) :
    (∃ m rest, parse (some data) none atEOF = .ret (m, rest, some e)) ↔ Wrong data.vis e := by
  rw [parse_nil_eq, Slice.ofNil_some]
  constructor
  · rintro ⟨m, rest, h⟩
    rcases wrong_or_goes_on none atEOF none none data with ⟨e', h'⟩ | ⟨m', h'⟩
    · rw [parseBody_of_wrong none atEOF none none data h'] at h
      simp only [dispatchError, Out.ret.injEq, Prod.mk.injEq, Option.some.injEq] at h
      rw [← h.2.2]; exact h'
    · rw [h'] at h
      simp [parseReturn] at h
  · intro h
    exact ⟨_, _, parseBody_of_wrong none atEOF none none data h⟩

/-- **C81.** With an error there is no message and, without transport, no rest. -/
theorem C81_no_message (data : Option Slice) (atEOF : Bool) (e : Err) (m : MsgImm) (rest : Option Slice)
    (h : parse data none atEOF = .ret (m, rest, some e)) : m.string = [] ∧ rest = none := by
  rcases parse_nil_cases data atEOF with ⟨e', h'⟩ | ⟨_, _, _, _, _, _, h'⟩
  · rw [h'] at h
    simp only [Out.ret.injEq, Prod.mk.injEq] at h
    obtain ⟨rfl, rfl, _⟩ := h
    exact ⟨rfl, rfl⟩
  · rw [h'] at h; simp at h

/-- **C81.** Something is wrong with exactly the bytes that do not have the shape of a message, -/
theorem C81_total (b : Bytes) : (∃ e, Wrong b e) ↔ ¬ ∃ fs xs o, Frame b fs xs o := wrong_iff

/-- **C81.** and the bytes determine the error, whatever the transport that brought them. -/
theorem C81_unique {b : Bytes} {e e' : Err} (h : Wrong b e) (h' : Wrong b e') : e = e' := wrong_unique h h'

theorem headerText_pos {fs : List Bytes} (h6 : fs.length = 6) : 0 < (headerText fs).length := by
  cases fs with
  | nil => simp at h6
  | cons f r => simp [headerText_cons]; omega

/-- **C81.** The position of an error is in the bytes, or right behind them (and this only if nothing is there, or
nothing behind the header); the byte at the position is the offending one: not `-`, or the byte before a `]` which is
neither `\` nor `"`. -/
theorem C81_position {b : Bytes} {pos : Nat} {what : String} (h : Wrong b (.parseError pos what)) :
    (pos = b.length ∧ what = "empty field expected" ∧ (b = [] ∨ ∃ fs, fs.length = 6 ∧ b = headerText fs)) ∨
    (∃ c, b[pos]? = some c ∧ c ≠ 45 ∧ (what = "empty field expected" ∧ pos + 1 = b.length ∨
      what = "empty structured data expected" ∧ b[pos + 1]? = some 32)) ∨
    (∃ c, b[pos]? = some c ∧ c ≠ 92 ∧ c ≠ 34 ∧ b[pos + 1]? = some 93 ∧ what = "\\\\ or \" expected") := by
  generalize he : Err.parseError pos what = e at h
  cases h with
  | nothing => cases he; exact Or.inl ⟨rfl, rfl, Or.inl rfl⟩
  | headerCut => cases he
  | headerEmpty => cases he
  | noData h6 hf => cases he; exact Or.inl ⟨rfl, rfl, Or.inr ⟨_, h6, rfl⟩⟩
  | @oneByte fs c h6 hf hc =>
    cases he
    right; left
    refine ⟨c, by simp, hc, Or.inl ⟨rfl, by simp⟩⟩
  | noSpace => cases he
  | spaceFirst => cases he
  | @notDash fs c r h6 hf hc hc2 =>
    cases he
    right; left
    refine ⟨c, by simp, hc, Or.inr ⟨rfl, ?_⟩⟩
    rw [List.append_assoc, List.append_assoc, List.getElem?_append_right (by omega)]
    simp
  | @strayAfter fs tail a b c h6 hf hsp hst hc =>
    cases he
    right; right
    have hb : headerText fs ++ tail = (headerText fs ++ a) ++ [c, 93] ++ b := by rw [hst.bytes]; simp
    have e1 : (headerText fs).length + a.length = (headerText fs ++ a).length := by simp
    refine ⟨c, ?_, ?_, ?_, ?_, rfl⟩
    · rw [hb, List.append_assoc, e1, List.getElem?_append_right (Nat.le_refl _)]; simp
    · rintro rfl; exact hst.bad ⟨a, Or.inl rfl⟩
    · rintro rfl; exact hst.bad ⟨a, Or.inr rfl⟩
    · rw [hb, List.append_assoc, e1, List.getElem?_append_right (by omega)]; simp
  | strayFirst => cases he
  | openEnd => cases he

/-! ## with a transport -/

theorem parseReturn_5425_noError (m m' : MsgImm) (atEOF : Bool) (data : Slice) (rest r : Option Slice) (e : Err) :
    parseReturn m (some .rfc5425) atEOF data rest ≠ .ret (m', r, some e) := by
  intro h
  unfold parseReturn at h
  cases rest with
  | some r' => simp at h
  | none =>
    simp only at h
    cases hd : data.from_ m.text with
    | panic => rw [hd] at h; cases h
    | hang => rw [hd] at h; cases h
    | ret d =>
      rw [hd] at h
      simp only [Out.ret_bind] at h
      have key : ∃ x, rfc5425.suffixStrip (some d) atEOF = .ret (x, none, none) := by
        unfold suffixStrip
        by_cases h0 : d.len = 0
        · exact ⟨none, by simp [h0]⟩
        · exact ⟨some d, by simp [h0]⟩
      obtain ⟨x, hx⟩ := key
      rw [hx] at h
      simp only [Out.ret_bind] at h
      split at h
      · simp at h
      · split at h
        · cases hs : m.buffer.sub 0 (m.text + (Slice.ofNil x).len) with
          | panic => rw [hs] at h; cases h
          | hang => rw [hs] at h; cases h
          | ret b => rw [hs] at h; simp at h
        · simp at h

/-- **C81.** With the RFC 5425 transport. -/
theorem C81_rfc5425_exactly (buf : Slice) (atEOF : Bool) (hcap : buf.cap < 2 ^ 63) (e : Err) :
    (∃ m rest, parse (some buf) (some .rfc5425) atEOF = .ret (m, rest, some e)) ↔ WrongFrame atEOF buf.vis e := by
  constructor
  · rintro ⟨m, rest, h⟩
    cases rest with
    | some r =>
      obtain ⟨_, hdr, p, hr, hc⟩ := (parse_5425_exact buf atEOF hcap).2.1 m r (some e) h
      by_cases hf : ∃ fs xs o, Frame p fs xs o
      · obtain ⟨fs, xs, o, hf⟩ := hf
        have h6 : fs.length = 6 := by cases hf <;> assumption
        match fs, h6, hf with
        | [pri, ts, host, app, pid, mid], _, hf =>
          have := (hc.message hf).1
          cases this
      · obtain ⟨e', he'⟩ := wrong_iff.mpr hf
        have := hc.diagnosis he'
        simp only [Option.some.injEq] at this
        exact .payload hr (this ▸ he')
    | none =>
      unfold parse at h
      simp only at h
      rcases prefixStrip_cases buf atEOF hcap with ⟨_, hp⟩ | ⟨h20, hi, hp⟩ | ⟨n, h20, hn, hi, ha, hp⟩ |
        ⟨n, l, h20, hn, hi, ha, hr, hp⟩ | ⟨n, l, h20, hn, hi, ha, hr, hlt, hp⟩ | ⟨n, k, h20, hn, hi, ha, hk, hp⟩
      · rw [hp] at h; simp at h
      · rw [hp] at h
        have : parseBody ⟨[], []⟩ none (some .noHeader) (some .rfc5425) atEOF = .ret (MsgImm.zero, none, some .noHeader) := rfl
        simp [this] at h
        rw [← h.2]
        refine .noHeader h20 ?_
        rcases hi with hi | hi
        · exact Or.inl (indexByte_none.mp hi)
        · obtain ⟨p, q, e1, e2, _⟩ := indexByte_some hi
          have : p = [] := by simpa using e2
          subst this
          exact Or.inr ⟨q, e1⟩
      · rw [hp] at h
        have : parseBody ⟨[], []⟩ none (some .invHeader) (some .rfc5425) atEOF = .ret (MsgImm.zero, none, some .invHeader) := rfl
        simp [this] at h
        rw [← h.2]
        obtain ⟨p, q, e1, e2, e3⟩ := indexByte_some hi
        have e4 : buf.vis = p ++ b!" " ++ q := by rw [e1]; simp
        have htk : buf.vis.take n = p := by rw [e1, ← e2]; simp
        rw [htk] at ha
        rw [Slice.len, e4] at h20
        rw [e4]
        refine .invHeader h20 (by rintro rfl; simp at e2; omega) e3 ?_
        rintro ⟨l, hl⟩
        rw [atoi_readsInt.mpr hl] at ha
        cases ha
      · rw [hp] at h; simp at h
      · rw [hp] at h
        cases atEOF with
        | false => simp at h
        | true =>
          simp only [if_true, Out.ret_bind] at h
          rw [if_neg (by simp), Slice.ofNil_some] at h
          obtain ⟨_, _, hsp, hb, _⟩ := framed_of h20 hn hi ha
          rcases wrong_or_goes_on (some .rfc5425) true none (some .incomplete) ⟨buf.vis.drop (n + 1), buf.spare⟩ with
            ⟨e', hw⟩ | ⟨m', hg⟩
          · rw [parseBody_of_wrong (some .rfc5425) true none (some .incomplete) ⟨buf.vis.drop (n + 1), buf.spare⟩ hw] at h
            simp only [dispatchError, Out.ret.injEq, Prod.mk.injEq, Option.some.injEq] at h
            rw [← h.2.2]
            have hl := indexByte_lt hi
            rw [Slice.len, hb] at h20
            rw [hb]
            refine .incomplete h20 hsp (atoi_readsInt.mp ha).1 ?_ ?_ rfl hw
            · simp only [Slice.len] at hlt
              simp only [List.length_drop]; omega
            · rw [List.length_take, Nat.min_eq_left (by omega)]; exact hr.2
          · rw [hg] at h
            exact absurd h (parseReturn_5425_noError _ _ _ _ _ _ _)
      · rw [hp] at h
        simp only [Out.ret_bind] at h
        rw [if_neg (by simp), Slice.ofNil_some] at h
        rcases parseBody_rest ⟨(buf.vis.take (n + 1 + k)).drop (n + 1), buf.vis.drop (n + 1 + k) ++ buf.spare⟩
          ⟨buf.vis.drop (n + 1 + k), buf.spare⟩ atEOF with ⟨e', h'⟩ | ⟨fs, xs, o, idx, txt, hL, h'⟩ <;>
        · rw [h'] at h
          simp at h
  · intro h
    generalize hb : buf.vis = b at h
    have hcv : buf.vis.length < 2 ^ 63 := by simp only [Slice.cap] at hcap; omega
    cases h with
    | noHeader h20 hc =>
      have hi : indexByte SP buf.vis = none ∨ indexByte SP buf.vis = some 0 := by
        rw [hb]
        rcases hc with hc | ⟨r, rfl⟩
        · exact Or.inl (indexByte_none.mpr hc)
        · exact Or.inr (indexByte_append (p := []) (c := SP) (by simp))
      rw [← hb] at h20
      refine ⟨MsgImm.zero, none, ?_⟩
      unfold parse
      simp only
      rcases prefixStrip_cases buf atEOF hcap with ⟨g, hp⟩ | ⟨_, _, hp⟩ | ⟨n, _, hn, g, _, hp⟩ |
        ⟨n, l, _, hn, g, ha, hr, hp⟩ | ⟨n, l, _, hn, g, ha, hr, hlt, hp⟩ | ⟨n, k, _, hn, g, ha, hk, hp⟩
      · simp only [Slice.len] at g; omega
      · rw [hp]; rfl
      all_goals
        rw [g] at hi
        rcases hi with hi | hi
        · cases hi
        · simp only [Option.some.injEq] at hi; omega
    | @invHeader hdr r h20 hne hsp hno =>
      have hi : indexByte SP buf.vis = some hdr.length := by
        have := indexByte_append (q := r) hsp
        rw [hb]; simpa using this
      have htk : buf.vis.take hdr.length = hdr := by rw [hb]; simp
      have ha : atoi hdr = none := by
        cases h : atoi hdr with
        | none => rfl
        | some l => exact absurd ⟨l, atoi_readsInt.mp h⟩ hno
      have hpos : 0 < hdr.length := List.length_pos_iff.mpr hne
      rw [← hb] at h20
      refine ⟨MsgImm.zero, none, ?_⟩
      unfold parse
      simp only
      rcases prefixStrip_cases buf atEOF hcap with ⟨g, hp⟩ | ⟨_, g, hp⟩ | ⟨n, _, hn, g, _, hp⟩ |
        ⟨n, l, _, hn, g, g', hr, hp⟩ | ⟨n, l, _, hn, g, g', hr, hlt, hp⟩ | ⟨n, k, _, hn, g, g', hk, hp⟩
      · simp only [Slice.len] at g; omega
      · rw [hi] at g
        rcases g with g | g
        · cases g
        · simp only [Option.some.injEq] at g; omega
      · rw [hp]; rfl
      all_goals
        rw [hi, Option.some.injEq] at g
        subst g
        rw [htk, ha] at g'; cases g'
    | @incomplete hdr pl l e' h20 hsp hl hlt hrange he hw =>
      have hne : hdr ≠ [] := by
        rintro rfl
        obtain ⟨sign, ds, e, hd, _⟩ := hl
        exact hd (List.append_eq_nil_iff.mp e.symm).2
      have hi : indexByte SP buf.vis = some hdr.length := by
        have := indexByte_append (q := pl) hsp
        rw [hb]; simpa using this
      have htk : buf.vis.take hdr.length = hdr := by rw [hb]; simp
      have hdr' : buf.vis.drop (hdr.length + 1) = pl := by
        rw [hb, show hdr.length + 1 = (hdr ++ b!" ").length by simp, List.drop_left]
      have hlen : buf.vis.length = hdr.length + 1 + pl.length := by rw [hb]; simp; omega
      have ha : atoi hdr = some l := atoi_readsInt.mpr ⟨hl, by omega, by omega⟩
      have hpos : 0 < hdr.length := List.length_pos_iff.mpr hne
      rw [← hb] at h20
      refine ⟨MsgImm.zero, none, ?_⟩
      unfold parse
      simp only
      rcases prefixStrip_cases buf atEOF hcap with ⟨g, hp⟩ | ⟨_, g, hp⟩ | ⟨n, _, hn, g, g', hp⟩ |
        ⟨n, l', _, hn, g, g', hr, hp⟩ | ⟨n, l', _, hn, g, g', hr, hlt', hp⟩ | ⟨n, k, _, hn, g, g', hk, hp⟩
      · simp only [Slice.len] at g; omega
      · rw [hi] at g
        rcases g with g | g
        · cases g
        · simp only [Option.some.injEq] at g; omega
      all_goals
        rw [hi, Option.some.injEq] at g
        subst g
        rw [htk, ha] at g'
      · cases g'
      · simp only [Option.some.injEq] at g'
        subst g'
        exact absurd ⟨by omega, hrange⟩ hr
      · rw [hp, he, hdr']
        simp only [if_true, Out.ret_bind]
        rw [if_neg (by simp), Slice.ofNil_some]
        exact parseBody_of_wrong (some .rfc5425) true none (some .incomplete) ⟨pl, buf.spare⟩ hw
      · simp only [Option.some.injEq] at g'
        simp only [Slice.len] at hk
        omega
    | @payload _ hdr p suffix _ hr hw =>
      subst hb
      obtain ⟨h1, h2, h3⟩ := parse_5425_exact buf atEOF hcap
      cases hp : parse (some buf) (some .rfc5425) atEOF with
      | panic =>
        exfalso
        rcases h1.mp hp with h | ⟨_, h⟩
        · exact (ready_not_bad hr).1 h
        · exact (ready_not_bad hr).2 h
      | hang => exact absurd hp (C09_never_hangs _ _ _ hcap)
      | ret x =>
        obtain ⟨m, rest, err⟩ := x
        cases rest with
        | none => exact absurd ⟨hdr, p, suffix, hr⟩ (h3 m err hp)
        | some r =>
          obtain ⟨_, hdr', p', hr', hc⟩ := h2 m r err hp
          obtain ⟨rfl, _⟩ := hr.unique hr'
          exact ⟨m, some r, by rw [hc.diagnosis hw]⟩

/-- **C81.** With a terminated transport. -/
theorem C81_terminated_exactly (t : Transport) (ht : t = .lfEnded ∨ t = .zeroEnded) (buf : Slice) (atEOF : Bool) (e : Err) :
    (∃ m rest, parse (some buf) (some t) atEOF = .ret (m, rest, some e)) ↔ WrongLine t atEOF buf.vis e := by
  obtain ⟨c, hc⟩ : ∃ c, t.term = some c := by rcases ht with rfl | rfl <;> exact ⟨_, rfl⟩
  have hpb : buf.vis ≠ [] → parse (some buf) (some t) atEOF = parseBody buf none none (some t) atEOF := by
    intro h0
    have hlen : buf.len ≠ 0 := by simpa [Slice.len] using h0
    unfold parse
    rcases ht with rfl | rfl <;> simp [Transport.prefixStrip, hlen]
  constructor
  · rintro ⟨m, rest, h⟩
    by_cases h0 : buf.vis = []
    · rcases parse_term_cases hc buf atEOF with ⟨_, h'⟩ | ⟨e', _⟩ | ⟨_, _, _, hL, _⟩ | ⟨_, _, _, _, _, hL, hb, _⟩ |
        ⟨_, _, _, _, _, _, _, _, _, hb, _⟩ | ⟨_, _, _, _, _, _, _, _, _, hb, _⟩
      · rw [h'] at h; simp at h
      · exfalso
        have hlen : buf.len = 0 := by simp [Slice.len, h0]
        have : parse (some buf) (some t) atEOF = .ret (MsgImm.zero, none, none) := by
          unfold parse
          rcases ht with rfl | rfl <;> simp [Transport.prefixStrip, hlen]
        rw [this] at h; simp at h
      · exact absurd hL.frame (fun hf => frame_not_wrong (h0 ▸ hf) .nothing)
      · rw [h0] at hb; simp at hb
      · rw [h0] at hb; simp at hb
      · rw [h0] at hb; simp at hb
    · by_cases hex : ∃ e', Wrong buf.vis e'
      · obtain ⟨e', hw⟩ := hex
        rw [hpb h0, parseBody_of_wrong (some t) atEOF none none buf hw] at h
        simp only [dispatchError, Out.ret.injEq, Prod.mk.injEq, Option.some.injEq] at h
        exact .bytes h0 (h.2.2 ▸ hw)
      · obtain ⟨fs, xs, o, hf⟩ := Classical.not_not.mp (mt wrong_iff.mpr hex)
        obtain ⟨idx, txt, hL⟩ := hf.layout
        rw [hpb h0, parseBody_complete (some t) atEOF none none buf hL] at h
        rcases hL.text_cases with ⟨rfl, rfl⟩ | ⟨pre, y, tx, rfl, hd, rfl, _⟩
        · cases h
        · rcases parseReturn_term hc buf idx pre y tx hd atEOF with ⟨_, h'⟩ | ⟨h1, h2, h'⟩ | ⟨p, q, _, _, h'⟩
          · rw [h'] at h; simp at h
          · rw [h'] at h
            simp only [Out.ret.injEq, Prod.mk.injEq] at h
            by_cases hcond : t = .lfEnded ∧ atEOF = true
            · rw [if_pos hcond] at h
              simp only [Option.some.injEq] at h
              rw [← h.2.2]
              refine .unended hcond.1 hcond.2 hf h1 ?_
              rw [hcond.1] at hc
              simp only [Transport.term, Option.some.injEq] at hc
              rw [← hc] at h2; exact h2
            · rw [if_neg hcond] at h
              simp at h
          · rw [h'] at h; simp at h
  · intro h
    cases h with
    | bytes h0 hw =>
      exact ⟨_, _, (hpb h0).trans (parseBody_of_wrong (some t) atEOF none none buf hw)⟩
    | @unended fs xs y text hlf he hf hne hnl =>
      subst hlf
      obtain ⟨idx, txt, hL⟩ := hf.layout
      have h0 : buf.vis ≠ [] := fun h => frame_not_wrong (h ▸ hf) .nothing
      rw [hpb h0, parseBody_complete (some .lfEnded) atEOF none none buf hL]
      rcases hL.text_cases with ⟨h, _⟩ | ⟨pre, y', tx, ho, hd, rfl, _⟩
      · cases h
      · simp only [Option.some.injEq, List.cons.injEq] at ho
        obtain ⟨rfl, rfl⟩ := ho
        rcases parseReturn_term (t := .lfEnded) (c := 10) rfl buf idx pre y text hd atEOF with ⟨h1, _⟩ | ⟨h1, h2, h'⟩ |
          ⟨p, q, h1, _, _⟩
        · exact absurd h1 hne
        · exact ⟨_, _, by rw [h', if_pos ⟨rfl, he⟩]⟩
        · exact absurd (by rw [h1]; simp) hnl

/-- **C81.** An RFC 5425 receiver delivers, with every complete frame, exactly the error of its payload. -/
theorem C81_received (reads : List Read) (b : Bool) (s : State) (h : Run .rfc5425 init reads (.ret (b, s))) :
    ∃ ps, Decodes (arrived reads) ps s.pending ∧ Each (fun p d => ∀ e, d.err = some e ↔ Wrong p e) ps s.out := by
  obtain ⟨ps, h1, h2⟩ := C80_decodes reads b s h
  refine ⟨ps, h1, ?_⟩
  clear h1 h
  generalize s.out = out at h2
  induction h2 with
  | nil => exact .nil
  | @cons p d ps out hc _ ih =>
    refine .cons (fun e => ⟨fun he => ?_, fun hw => hc.diagnosis hw⟩) ih
    by_cases hf : ∃ fs xs o, Frame p fs xs o
    · obtain ⟨fs, xs, o, hf⟩ := hf
      have h6 : fs.length = 6 := by cases hf <;> assumption
      match fs, h6, hf with
      | [pri, ts, host, app, pid, mid], _, hf =>
        have := (hc.message hf).1
        rw [he] at this
        cases this
    · obtain ⟨e', he'⟩ := wrong_iff.mpr hf
      have := hc.diagnosis he'
      rw [he] at this
      simp only [Option.some.injEq] at this
      exact this ▸ he'

/-! ## examples -/

/-- Six header fields. -/
def sixFields : List Bytes := [b!"<34>1", b!"-", b!"h", b!"a", b!"p", b!"m"]

example : headerText sixFields = b!"<34>1 - h a p m " := by decide

/-- A stray bracket in the second element: the position is the one of the byte before it. -/
example : Wrong b!"<34>1 - h a p m [a b=\"c\"][d e] x" (.parseError 28 "\\\\ or \" expected") := by
  have h : Stray b!"[a b=\"c\"][d e] x" (b!"[a b=\"c\"][d " ++ b!"e") b!" x" := by
    refine ⟨by decide, ?_, ?_⟩
    · have := closed_append (p := b!"[d e") (closed_esc closed_nil (p := b!"[a b=\"c") (by decide) 34 (Or.inr rfl)) (by decide)
      simpa using this
    · rintro ⟨w, hw | hw⟩
      · have := congrArg List.getLast? hw; simp at this
      · have := congrArg List.getLast? hw; simp at this
  have := Wrong.strayAfter (fs := sixFields) (by decide) (by decide)
    ⟨b!"[a", b!"b=\"c\"][d e] x", by decide, by decide, by decide⟩ h (by decide)
  exact this

/-- and `Parse` says so -/
example : parse (some ⟨b!"<34>1 - h a p m [a b=\"c\"][d e] x", []⟩) none true =
    .ret (MsgImm.zero, none, some (.parseError 28 "\\\\ or \" expected")) := by decide +kernel

/-- Bytes of the right shape: nothing is wrong. -/
example (e : Err) : ¬ Wrong b!"<34>1 - h a p m nil text" e :=
  frame_not_wrong (Frame.sd (fs := sixFields) (tail := b!"nil text") (by decide) (by decide)
    (.quiet (.last (by decide) (by decide))) ⟨b!"nil", b!"text", by decide, by decide, by decide⟩)

example : Wrong b!"<34>1 - h a p m x text" (.parseError 16 "empty structured data expected") :=
  Wrong.notDash (fs := sixFields) (c := 120) (r := b!"text") (by decide) (by decide) (by decide) (by decide)

example : Wrong b!"<34>1 - h" .posNotFound :=
  Wrong.headerCut (fs := [b!"<34>1", b!"-"]) (r := b!"h") (by decide) (by decide) (by decide) (by decide)

example : Wrong b!"<34>1  h" .pos0 :=
  Wrong.headerEmpty (fs := [b!"<34>1"]) (r := b!"h") (by decide) (by decide)

/-- A frame with an unusable header, and one that is cut at the end of the file. -/
example : WrongFrame false b!"12x34 <34>1 - h a p m -" .invHeader := by
  refine .invHeader (hdr := b!"12x34") (r := b!"<34>1 - h a p m -") (by decide) (by decide) (by decide) ?_
  rintro ⟨l, h⟩
  have : atoi b!"12x34" = none := by decide +kernel
  rw [atoi_readsInt.mpr h] at this
  cases this

example : parse (some ⟨b!"50 <34>1 - h a p m [a", []⟩) (some .rfc5425) true = .ret (MsgImm.zero, none, some .incomplete) := by
  decide +kernel

end Syslog5424
