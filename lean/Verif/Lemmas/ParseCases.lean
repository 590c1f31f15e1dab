import Verif.Lemmas.View
/-! # All the outcomes of `Parse` -/
namespace Syslog5424
open Spec Transport

theorem parse_nil_eq (data : Option Slice) (atEOF : Bool) :
    parse data none atEOF = parseBody (Slice.ofNil data) none none none atEOF := rfl

/-- `Parse` without transport. -/
theorem parse_nil_cases (data : Option Slice) (atEOF : Bool) :
    (∃ e, parse data none atEOF = .ret (MsgImm.zero, none, some e)) ∨
    (∃ fs xs o idx txt, Layout (Slice.ofNil data).vis fs xs o idx txt ∧
      parse data none atEOF = .ret (⟨Slice.ofNil data, idx, txt⟩, none, none)) := by
  rw [parse_nil_eq]
  rcases parseBody_sound none atEOF none none (Slice.ofNil data) with ⟨e, h⟩ | ⟨fs, xs, o, idx, txt, h1, h2⟩
  · exact Or.inl ⟨e, h⟩
  · exact Or.inr ⟨fs, xs, o, idx, txt, h1, h2⟩

/-- The text offset of a layout, and what is behind it. -/
theorem Layout.text_cases {b : Bytes} {fs xs o idx txt} (h : Layout b fs xs o idx txt) :
    (o = none ∧ txt = -1) ∨
    (∃ pre y t, o = some (y :: t) ∧ b = pre ++ y :: t ∧ txt = ((pre.length + 1 : Nat) : Int) ∧
      ∀ t' spare, View ⟨⟨pre ++ y :: t', spare⟩, idx, txt⟩ fs xs (some (y :: t'))) := by
  cases h with
  | dash => exact Or.inl ⟨rfl, rfl⟩
  | @dashText _ t h1 h2 =>
    right
    refine ⟨headerText fs ++ [DASH], SP, t, rfl, by simp, by simp; omega, ?_⟩
    intro t' spare
    have := View.dashText (fs := fs) (t := t') (spare := spare) h1 h2
    simpa using this
  | @sd _ _ _ tail h1 h2 h3 h4 =>
    obtain ⟨e1, e2, e3⟩ := h3.spec
    cases o with
    | none => exact Or.inl ⟨rfl, rfl⟩
    | some q =>
      right
      cases q with
      | nil => exact absurd rfl e3
      | cons y t =>
        refine ⟨headerText fs ++ xs.flatten, y, t, rfl, ?_, ?_, ?_⟩
        · rw [e1]; simp
        · simp [textPos]
        · intro t' spare
          have := View.sd (fs := fs) (xs := xs) (o := some (y :: t')) (spare := spare) h1 h2 e2 (by simp)
          simpa [textPos] using this

/-- `parseReturn` for the terminated transports, by cases on the text. -/
theorem parseReturn_term {t : Transport} {c : UInt8} (ht : t.term = some c) (data : Slice) (idx : List Int)
    (pre : Bytes) (y : UInt8) (tx : Bytes) (hd : data.vis = pre ++ y :: tx) (atEOF : Bool) :
    (tx = [] ∧ parseReturn ⟨data, idx, ((pre.length + 1 : Nat) : Int)⟩ (some t) atEOF data none =
      .ret (MsgImm.zero, none, none)) ∨
    (tx ≠ [] ∧ c ∉ tx ∧ parseReturn ⟨data, idx, ((pre.length + 1 : Nat) : Int)⟩ (some t) atEOF data none =
      .ret (⟨data, idx, ((pre.length + 1 : Nat) : Int)⟩, none,
        if t = .lfEnded ∧ atEOF = true then some .incomplete else none)) ∨
    (∃ p q, tx = p ++ c :: q ∧ c ∉ p ∧ parseReturn ⟨data, idx, ((pre.length + 1 : Nat) : Int)⟩ (some t) atEOF data none =
      .ret (⟨⟨pre ++ y :: p, c :: q ++ data.spare⟩, idx, ((pre.length + 1 : Nat) : Int)⟩, some ⟨q, data.spare⟩, none)) := by
  have hfrom := Slice.from_nat (s := data) (i := pre.length + 1) (by simp [Slice.len, hd])
  have hdrop : data.vis.drop (pre.length + 1) = tx := by
    rw [hd, show pre ++ y :: tx = (pre ++ [y]) ++ tx by simp, show pre.length + 1 = (pre ++ [y]).length by simp,
      List.drop_left]
  rw [hdrop] at hfrom
  by_cases h0 : tx = []
  · left
    refine ⟨h0, ?_⟩
    subst h0
    unfold parseReturn
    simp only
    rw [hfrom]
    cases t <;> rfl
  right
  have hlen : (Slice.mk tx data.spare).len ≠ 0 := by simpa using h0
  cases hi : indexByte c tx with
  | none =>
    left
    refine ⟨h0, indexByte_none.mp hi, ?_⟩
    have hs : t.suffixStrip (some ⟨tx, data.spare⟩) atEOF =
        .ret (some ⟨tx, data.spare⟩, none, if t = .lfEnded ∧ atEOF = true then some .incomplete else none) := by
      cases t with
      | zeroEnded =>
        simp only [Transport.term, Option.some.injEq] at ht; subst ht
        simp only [Transport.suffixStrip, hlen, if_false, hi]
        cases atEOF <;> rfl
      | lfEnded =>
        simp only [Transport.term, Option.some.injEq] at ht; subst ht
        simp only [Transport.suffixStrip, hlen, if_false, hi]
        cases atEOF <;> rfl
      | rfc5425 => simp [Transport.term] at ht
    unfold parseReturn
    simp only
    rw [hfrom]
    simp only [Out.ret_bind]
    rw [hs]
    simp only [Out.ret_bind]
    rw [if_neg (by simp), if_neg]
    · rfl
    · simp only [Slice.ofNil, Slice.len, hd, List.length_append, List.length_cons]; omega
  | some i =>
    right
    obtain ⟨p, q, e1, _, e3⟩ := indexByte_some hi
    refine ⟨p, q, e1, e3, ?_⟩
    unfold parseReturn
    simp only
    rw [hfrom]
    simp only [Out.ret_bind]
    rw [e1, suffixStrip_term ht p q data.spare e3 atEOF]
    simp only [Out.ret_bind]
    rw [if_neg (by simp), if_pos]
    · have hd2 : data.vis = (pre ++ y :: p) ++ c :: q := by rw [hd, e1]; simp
      rw [sub_mid (pre := []) (x := pre ++ y :: p) (post := c :: q) (by rw [hd2]; simp) (by simp)
        (by simp [Slice.ofNil, Slice.len]; omega)]
      rfl
    · simp only [Slice.ofNil, Slice.len, hd, e1, List.length_append, List.length_cons]; omega

/-- `Parse` with a terminated transport. -/
theorem parse_term_cases {t : Transport} {c : UInt8} (ht : t.term = some c) (buf : Slice) (atEOF : Bool) :
    (buf.vis = [] ∧ parse (some buf) (some t) atEOF = .ret (MsgImm.zero, none, none)) ∨
    (∃ e, parse (some buf) (some t) atEOF = .ret (MsgImm.zero, none, some e)) ∨
    (∃ fs xs idx, Layout buf.vis fs xs none idx (-1) ∧ parse (some buf) (some t) atEOF = .panic) ∨
    (∃ fs xs idx pre y, Layout buf.vis fs xs (some [y]) idx ((pre.length + 1 : Nat) : Int) ∧ buf.vis = pre ++ [y] ∧
      parse (some buf) (some t) atEOF = .ret (MsgImm.zero, none, none)) ∨
    (∃ fs xs idx pre y tx, Layout buf.vis fs xs (some (y :: tx)) idx ((pre.length + 1 : Nat) : Int) ∧
      tx ≠ [] ∧ c ∉ tx ∧ buf.vis = pre ++ y :: tx ∧
      parse (some buf) (some t) atEOF = .ret (⟨buf, idx, ((pre.length + 1 : Nat) : Int)⟩, none,
        if t = .lfEnded ∧ atEOF = true then some .incomplete else none)) ∨
    (∃ fs xs idx pre y p q, Layout buf.vis fs xs (some (y :: (p ++ c :: q))) idx ((pre.length + 1 : Nat) : Int) ∧
      c ∉ p ∧ buf.vis = pre ++ y :: (p ++ c :: q) ∧
      (∀ t' spare, View ⟨⟨pre ++ y :: t', spare⟩, idx, ((pre.length + 1 : Nat) : Int)⟩ fs xs (some (y :: t'))) ∧
      parse (some buf) (some t) atEOF =
        .ret (⟨⟨pre ++ y :: p, c :: q ++ buf.spare⟩, idx, ((pre.length + 1 : Nat) : Int)⟩, some ⟨q, buf.spare⟩, none)) := by
  by_cases h0 : buf.vis = []
  · left
    refine ⟨h0, ?_⟩
    unfold parse
    simp only [Transport.prefixStrip, Slice.len, h0, List.length_nil, if_true, Out.ret_bind]
    rfl
  right
  have hlen : buf.len ≠ 0 := by simpa [Slice.len] using h0
  have hp : parse (some buf) (some t) atEOF = parseBody buf none none (some t) atEOF := by
    unfold parse
    cases t with
    | zeroEnded => simp [Transport.prefixStrip, hlen]
    | lfEnded => simp [Transport.prefixStrip, hlen]
    | rfc5425 => simp [Transport.term] at ht
  rw [hp]
  rcases parseBody_sound (some t) atEOF none none buf with ⟨e, h⟩ | ⟨fs, xs, o, idx, txt, h1, h2⟩
  · exact Or.inl ⟨e, h⟩
  right
  rw [h2]
  rcases h1.text_cases with ⟨rfl, rfl⟩ | ⟨pre, y, tx, rfl, hb, rfl, hview⟩
  · left
    exact ⟨fs, xs, idx, h1, rfl⟩
  right
  rcases parseReturn_term ht buf idx pre y tx hb atEOF with ⟨rfl, h⟩ | ⟨hn, hc, h⟩ | ⟨p, q, rfl, hc, h⟩
  · exact Or.inl ⟨fs, xs, idx, pre, y, h1, hb, h⟩
  · exact Or.inr (Or.inl ⟨fs, xs, idx, pre, y, tx, h1, hn, hc, hb, h⟩)
  · exact Or.inr (Or.inr ⟨fs, xs, idx, pre, y, p, q, h1, hc, hb, hview, h⟩)

/-- `Parse` with a terminated transport, when the bytes up to the terminator and beyond are a frame. -/
theorem parse_term_frame {t : Transport} {c : UInt8} (ht : t.term = some c) (buf : Slice) (atEOF : Bool)
    {fs xs : List Bytes} {y : UInt8} {p q : Bytes} {idx : List Int} {txt : Int}
    (h : Layout buf.vis fs xs (some (y :: (p ++ c :: q))) idx txt) (hp : c ∉ p) :
    ∃ pre, buf.vis = pre ++ y :: (p ++ c :: q) ∧ View ⟨⟨pre ++ y :: p, c :: q ++ buf.spare⟩, idx, txt⟩ fs xs (some (y :: p)) ∧
      parse (some buf) (some t) atEOF =
        .ret (⟨⟨pre ++ y :: p, c :: q ++ buf.spare⟩, idx, txt⟩, some ⟨q, buf.spare⟩, none) := by
  rcases h.text_cases with ⟨h1, _⟩ | ⟨pre, y', tx, ho, hb, rfl, hview⟩
  · simp at h1
  simp only [Option.some.injEq, List.cons.injEq] at ho
  obtain ⟨rfl, rfl⟩ := ho
  refine ⟨pre, hb, hview _ _, ?_⟩
  have hlen : buf.len ≠ 0 := by simp [Slice.len, hb]
  have hpb : parse (some buf) (some t) atEOF = parseBody buf none none (some t) atEOF := by
    unfold parse
    cases t with
    | zeroEnded => simp [Transport.prefixStrip, hlen]
    | lfEnded => simp [Transport.prefixStrip, hlen]
    | rfc5425 => simp [Transport.term] at ht
  rw [hpb, parseBody_complete (some t) atEOF none none buf h]
  rcases parseReturn_term ht buf idx pre y (p ++ c :: q) hb atEOF with ⟨h0, _⟩ | ⟨_, hc, _⟩ | ⟨p', q', hpq, hc, hr⟩
  · simp at h0
  · exact absurd (by simp) hc
  · have e1 := indexByte_append (q := q) hp
    have e2 := indexByte_append (q := q') hc
    rw [hpq, e2] at e1
    simp only [Option.some.injEq] at e1
    obtain ⟨g4, g5⟩ := List.append_inj hpq e1.symm
    simp only [List.cons.injEq, true_and] at g5
    subst g4; subst g5
    exact hr

theorem parse_term_none {t : Transport} {c : UInt8} (ht : t.term = some c) (buf : Slice) (atEOF : Bool)
    {fs xs : List Bytes} {idx : List Int} {txt : Int} (h : Layout buf.vis fs xs none idx txt) :
    parse (some buf) (some t) atEOF = .panic := by
  rcases h.text_cases with ⟨_, rfl⟩ | ⟨pre, y', tx, ho, _⟩
  · have hne : buf.vis ≠ [] := by
      intro e
      rw [e] at h
      generalize hb : ([] : Bytes) = b at h
      cases h with
      | dash h6 => simp at hb
      | sd h6 hr hi => have := hi.ne_nil; simp at hb; exact this hb.2
    have hlen : buf.len ≠ 0 := by simpa [Slice.len] using hne
    have hpb : parse (some buf) (some t) atEOF = parseBody buf none none (some t) atEOF := by
      unfold parse
      cases t with
      | zeroEnded => simp [Transport.prefixStrip, hlen]
      | lfEnded => simp [Transport.prefixStrip, hlen]
      | rfc5425 => simp [Transport.term] at ht
    rw [hpb, parseBody_complete (some t) atEOF none none buf h]
    rfl
  · simp at ho

/-- `Parse` once the RFC 5425 framing gave a payload. -/
theorem parseBody_rest (data r : Slice) (atEOF : Bool) :
    (∃ e, parseBody data (some r) none (some .rfc5425) atEOF = .ret (MsgImm.zero, some r, some e)) ∨
    (∃ fs xs o idx txt, Layout data.vis fs xs o idx txt ∧
      parseBody data (some r) none (some .rfc5425) atEOF = .ret (⟨data, idx, txt⟩, some r, none)) := by
  rcases parseBody_sound (some .rfc5425) atEOF (some r) none data with ⟨e, h⟩ | ⟨fs, xs, o, idx, txt, h1, h2⟩
  · exact Or.inl ⟨e, h⟩
  · exact Or.inr ⟨fs, xs, o, idx, txt, h1, h2⟩

/-- `Parse` of a truncated RFC 5425 payload at end of file. -/
theorem parseBody_truncated (data : Slice) :
    (parseBody data none (some .incomplete) (some .rfc5425) true = .ret (MsgImm.zero, none, some .incomplete)) ∨
    (∃ fs xs idx, Layout data.vis fs xs none idx (-1) ∧
      parseBody data none (some .incomplete) (some .rfc5425) true = .panic) ∨
    (∃ fs xs y idx txt, Layout data.vis fs xs (some [y]) idx txt ∧
      parseBody data none (some .incomplete) (some .rfc5425) true = .ret (MsgImm.zero, none, none)) ∨
    (∃ fs xs y tx idx txt, tx ≠ [] ∧ Layout data.vis fs xs (some (y :: tx)) idx txt ∧
      parseBody data none (some .incomplete) (some .rfc5425) true = .ret (⟨data, idx, txt⟩, none, none)) := by
  rcases parseBody_sound (some .rfc5425) true none (some .incomplete) data with ⟨e, h⟩ | ⟨fs, xs, o, idx, txt, h1, h2⟩
  · exact Or.inl h
  right
  rw [h2]
  rcases h1.text_cases with ⟨rfl, rfl⟩ | ⟨pre, y, tx, rfl, hd, rfl, _⟩
  · left
    exact ⟨fs, xs, idx, h1, rfl⟩
  right
  have hfrom := Slice.from_nat (s := data) (i := pre.length + 1) (by simp [Slice.len, hd])
  have hdrop : data.vis.drop (pre.length + 1) = tx := by
    rw [hd, show pre ++ y :: tx = (pre ++ [y]) ++ tx by simp, show pre.length + 1 = (pre ++ [y]).length by simp,
      List.drop_left]
  rw [hdrop] at hfrom
  by_cases h0 : tx = []
  · left
    subst h0
    refine ⟨fs, xs, y, idx, _, h1, ?_⟩
    unfold parseReturn
    simp only
    rw [hfrom]
    rfl
  · right
    refine ⟨fs, xs, y, tx, idx, _, h0, h1, ?_⟩
    have hlen : (Slice.mk tx data.spare).len ≠ 0 := by simpa using h0
    have hs : Transport.rfc5425.suffixStrip (some ⟨tx, data.spare⟩) true = .ret (some ⟨tx, data.spare⟩, none, none) := by
      simp only [Transport.suffixStrip, hlen, if_false]
    unfold parseReturn
    simp only
    rw [hfrom]
    simp only [Out.ret_bind]
    rw [hs]
    simp only [Out.ret_bind]
    rw [if_neg (by simp), if_neg]
    · rfl
    · simp only [Slice.ofNil, Slice.len, hd, List.length_append, List.length_cons]; omega

/-- A buffer `header SP payload`, with at least 20 bytes. -/
def Spec.Framed (buf hdr payload : Bytes) (l : Int) : Prop :=
  20 ≤ buf.length ∧ hdr ≠ [] ∧ SP ∉ hdr ∧ buf = hdr ++ b!" " ++ payload ∧ atoi hdr = some l

theorem framed_of {buf : Slice} {n : Nat} {l : Int} (h20 : 20 ≤ buf.len) (hn : 0 < n) (hi : indexByte SP buf.vis = some n)
    (ha : atoi (buf.vis.take n) = some l) : Framed buf.vis (buf.vis.take n) (buf.vis.drop (n + 1)) l := by
  obtain ⟨p, q, hpq, hl, hnp⟩ := indexByte_some hi
  subst hl
  have e1 : buf.vis.take p.length = p := by rw [hpq]; simp
  have e2 : buf.vis.drop (p.length + 1) = q := by
    rw [hpq, show p ++ SP :: q = (p ++ [SP]) ++ q by simp, show p.length + 1 = (p ++ [SP]).length by simp, List.drop_left]
  refine ⟨h20, ?_, ?_, ?_, ha⟩
  · rw [e1]; rintro rfl; simp at hn
  · rw [e1]; exact hnp
  · rw [e1, e2, hpq]; simp

/-- `Parse` with the RFC 5425 transport. -/
theorem parse_5425_cases (buf : Slice) (atEOF : Bool) (hcap : buf.cap < 2 ^ 63) :
    (∃ rest e, parse (some buf) (some .rfc5425) atEOF = .ret (MsgImm.zero, rest, e)) ∨
    (∃ hdr pl l, Framed buf.vis hdr pl l ∧ ¬ HeaderInRange hdr.length l ∧
      parse (some buf) (some .rfc5425) atEOF = .panic) ∨
    (∃ hdr pl l fs xs idx, Framed buf.vis hdr pl l ∧ HeaderInRange hdr.length l ∧ (pl.length : Int) < l ∧ atEOF = true ∧
      Layout pl fs xs none idx (-1) ∧ parse (some buf) (some .rfc5425) atEOF = .panic) ∨
    (∃ hdr pl l fs xs y tx idx txt, Framed buf.vis hdr pl l ∧ HeaderInRange hdr.length l ∧ (pl.length : Int) < l ∧
      atEOF = true ∧ tx ≠ [] ∧ Layout pl fs xs (some (y :: tx)) idx txt ∧
      parse (some buf) (some .rfc5425) atEOF = .ret (⟨⟨pl, buf.spare⟩, idx, txt⟩, none, none)) ∨
    (∃ hdr d r fs xs o idx txt, Framed buf.vis hdr (d ++ r) d.length ∧ Layout d fs xs o idx txt ∧
      parse (some buf) (some .rfc5425) atEOF =
        .ret (⟨⟨d, r ++ buf.spare⟩, idx, txt⟩, some ⟨r, buf.spare⟩, none)) := by
  unfold parse
  simp only
  have hcap2 : buf.vis.length < 2 ^ 63 := by simp only [Slice.cap] at hcap; omega
  rcases prefixStrip_cases buf atEOF hcap with ⟨_, hp⟩ | ⟨_, _, hp⟩ | ⟨n, _, _, _, _, hp⟩ |
    ⟨n, l, h20, hn, hi, ha, hr, hp⟩ | ⟨n, l, h20, hn, hi, ha, hr, hlt, hp⟩ | ⟨n, k, h20, hn, hi, ha, hk, hp⟩
  · left; rw [hp]; exact ⟨none, none, rfl⟩
  · left; rw [hp]; exact ⟨none, some .noHeader, rfl⟩
  · left; rw [hp]; exact ⟨none, some .invHeader, rfl⟩
  · right; left
    have hl := indexByte_lt hi
    refine ⟨_, _, _, framed_of h20 hn hi ha, ?_, by rw [hp]; rfl⟩
    rw [List.length_take, Nat.min_eq_left (by omega)]; exact hr
  · have hl := indexByte_lt hi
    have hF := framed_of h20 hn hi ha
    have hr2 : HeaderInRange (buf.vis.take n).length l := by
      rw [List.length_take, Nat.min_eq_left (by omega)]; exact hr
    have hpl : ((buf.vis.drop (n + 1)).length : Int) < l := by
      simp only [Slice.len] at hlt
      simp only [List.length_drop]; omega
    rw [hp]
    cases atEOF with
    | false => left; exact ⟨none, none, rfl⟩
    | true =>
      simp only [if_true, Out.ret_bind]
      rw [if_neg (by simp)]
      simp only [Slice.ofNil_some]
      rcases parseBody_truncated ⟨buf.vis.drop (n + 1), buf.spare⟩ with h | ⟨fs, xs, idx, hL, h⟩ | ⟨_, _, _, _, _, _, h⟩ |
              ⟨fs, xs, y, tx, idx, txt, htx, hL, h⟩
      · left; exact ⟨_, _, h⟩
      · right; right; left
        exact ⟨_, _, _, _, _, _, hF, hr2, hpl, trivial, hL, h⟩
      · left; exact ⟨_, _, h⟩
      · right; right; right; left
        exact ⟨_, _, _, _, _, _, _, _, _, hF, hr2, hpl, trivial, htx, hL, h⟩
  · have hF := framed_of h20 hn hi ha
    rw [hp]
    simp only [Out.ret_bind]
    rw [if_neg (by simp)]
    simp only [Slice.ofNil_some]
    rcases parseBody_rest ⟨(buf.vis.take (n + 1 + k)).drop (n + 1), buf.vis.drop (n + 1 + k) ++ buf.spare⟩
      ⟨buf.vis.drop (n + 1 + k), buf.spare⟩ atEOF with ⟨e, h⟩ | ⟨fs, xs, o, idx, txt, hL, h⟩
    · left; exact ⟨_, _, h⟩
    · right; right; right; right
      refine ⟨buf.vis.take n, (buf.vis.take (n + 1 + k)).drop (n + 1), buf.vis.drop (n + 1 + k), fs, xs, o, idx, txt, ?_, hL, h⟩
      have e : (buf.vis.take (n + 1 + k)).drop (n + 1) ++ buf.vis.drop (n + 1 + k) = buf.vis.drop (n + 1) := by
        have : buf.vis.drop (n + 1 + k) = (buf.vis.drop (n + 1)).drop k := by rw [List.drop_drop]
        rw [this, List.drop_take, show n + 1 + k - (n + 1) = k by omega, List.take_append_drop]
      rw [e]
      have hk' : ((buf.vis.take (n + 1 + k)).drop (n + 1)).length = k := by
        simp only [Slice.len] at hk
        simp; omega
      rw [hk']
      exact hF

/-- `Parse` of a complete RFC 5425 frame. -/
theorem parse_5425_frame (d suffix spare : Bytes) (atEOF : Bool) (hd : d.length + 20 < 2 ^ 63)
    (h20 : 20 ≤ (rfc5425.encode d ++ suffix).length) {fs xs o idx txt} (h : Layout d fs xs o idx txt) :
    parse (some ⟨rfc5425.encode d ++ suffix, spare⟩) (some .rfc5425) atEOF =
      .ret (⟨⟨d, suffix ++ spare⟩, idx, txt⟩, some ⟨suffix, spare⟩, none) := by
  have e : rfc5425.encode d ++ suffix = natDec d.length ++ SP :: (d ++ suffix) := by simp [encode]
  rw [e] at h20 ⊢
  unfold parse
  simp only
  rw [prefixStrip_5425_frame d suffix spare atEOF hd h20]
  simp only [Out.ret_bind]
  rw [if_neg (by simp)]
  exact parseBody_complete (some .rfc5425) atEOF (some ⟨suffix, spare⟩) none ⟨d, suffix ++ spare⟩ h

/-- Every message that `Parse` returns describes its buffer. -/
theorem parse_view {data : Option Slice} {t : Option Transport} {atEOF : Bool} {m : MsgImm} {rest : Option Slice}
    {e : Option Err} (hcap : (Slice.ofNil data).cap < 2 ^ 63) (h : parse data t atEOF = .ret (m, rest, e))
    (hm : m ≠ MsgImm.zero) : ∃ fs xs o, View m fs xs o := by
  cases t with
  | none =>
    rcases parse_nil_cases data atEOF with ⟨e', h'⟩ | ⟨fs, xs, o, idx, txt, h1, h2⟩
    · rw [h'] at h; simp at h; exact absurd h.1.symm hm
    · rw [h2] at h; simp at h; rw [← h.1]; exact ⟨_, _, _, h1.view⟩
  | some t =>
    cases data with
    | none =>
      have : parse none (some t) atEOF = .ret (MsgImm.zero, none, none) := by cases t <;> rfl
      rw [this] at h; simp at h; exact absurd h.1.symm hm
    | some buf =>
      have term : ∀ c, t.term = some c → ∃ fs xs o, View m fs xs o := by
        intro c hc
        rcases parse_term_cases hc buf atEOF with ⟨_, h'⟩ | ⟨_, h'⟩ | ⟨_, _, _, _, h'⟩ | ⟨_, _, _, _, _, _, _, h'⟩ |
          ⟨_, _, _, _, _, _, hL, _, _, _, h'⟩ | ⟨_, _, _, _, _, p, q, hL, hv, _, hV, h'⟩
        · rw [h'] at h; simp at h; exact absurd h.1.symm hm
        · rw [h'] at h; simp at h; exact absurd h.1.symm hm
        · rw [h'] at h; simp at h
        · rw [h'] at h; simp at h; exact absurd h.1.symm hm
        · rw [h'] at h; simp only [Out.ret.injEq, Prod.mk.injEq] at h; rw [← h.1]; exact ⟨_, _, _, hL.view⟩
        · rw [h'] at h; simp only [Out.ret.injEq, Prod.mk.injEq] at h; rw [← h.1]; exact ⟨_, _, _, hV _ _⟩
      cases t with
      | zeroEnded => exact term _ rfl
      | lfEnded => exact term _ rfl
      | rfc5425 =>
        rcases parse_5425_cases buf atEOF hcap with ⟨_, _, h'⟩ | ⟨_, _, _, _, _, h'⟩ | ⟨_, _, _, _, _, _, _, _, _, _, _, h'⟩ |
          ⟨_, _, _, _, _, _, _, _, _, _, _, _, _, _, hL, h'⟩ | ⟨_, _, _, _, _, _, _, _, _, hL, h'⟩
        · rw [h'] at h; simp at h; exact absurd h.1.symm hm
        · rw [h'] at h; simp at h
        · rw [h'] at h; simp at h
        · rw [h'] at h; simp only [Out.ret.injEq, Prod.mk.injEq] at h; rw [← h.1]
          exact ⟨_, _, _, Layout.view (data := ⟨_, _⟩) hL⟩
        · rw [h'] at h; simp only [Out.ret.injEq, Prod.mk.injEq] at h; rw [← h.1]
          exact ⟨_, _, _, Layout.view (data := ⟨_, _⟩) hL⟩

end Syslog5424
