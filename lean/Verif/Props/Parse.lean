import Verif.Lemmas.ParseCases
import Verif.Spec.Accessors
import Verif.Props.Fields
import Verif.Props.Priority
import Verif.Props.SData
import Verif.Props.Transport
/-! # Properties C09, C10, C13: `Parse` on arbitrary input -/
namespace Syslog5424
open Spec Transport

/-! ## C09 -/

/-- C09 (partial): without transport, `Parse` returns on every input: a message and no error, or an error
and no message. -/
theorem C09_nil_transport_partial (data : Option Slice) (atEOF : Bool) :
    ∃ m e, parse data none atEOF = .ret (m, none, e) ∧ (e = none ↔ m ≠ MsgImm.zero) := by
  rcases parse_nil_cases data atEOF with ⟨e, h⟩ | ⟨fs, xs, o, idx, txt, h1, h2⟩
  · exact ⟨_, _, h, by simp⟩
  · exact ⟨_, _, h2, by simpa using h1.view.ne_zero⟩

/-- C09: without transport, `Parse` accepts exactly the byte strings that have the shape of a frame. -/
theorem C09_nil_accepts (data : Slice) (atEOF : Bool) :
    (∃ m, parse (some data) none atEOF = .ret (m, none, none)) ↔ ∃ fs xs o, Frame data.vis fs xs o := by
  constructor
  · rintro ⟨m, h⟩
    rcases parse_nil_cases (some data) atEOF with ⟨e, h'⟩ | ⟨fs, xs, o, idx, txt, h1, h2⟩
    · rw [h'] at h; simp at h
    · exact ⟨fs, xs, o, h1.frame⟩
  · rintro ⟨fs, xs, o, h⟩
    obtain ⟨idx, txt, hL⟩ := h.layout
    exact ⟨_, parseBody_complete none atEOF none none data hL⟩

/-- C09: `Parse` never loops for ever, whatever the input, the transport and the end-of-file flag. -/
theorem C09_never_hangs (data : Option Slice) (t : Option Transport) (atEOF : Bool)
    (hcap : (Slice.ofNil data).cap < 2 ^ 63) : parse data t atEOF ≠ .hang := by
  cases t with
  | none =>
    obtain ⟨m, e, h, _⟩ := C09_nil_transport_partial data atEOF
    rw [h]; simp
  | some t =>
    cases data with
    | none => cases t <;> (intro h; cases h)
    | some buf =>
      have term : ∀ c, t.term = some c → parse (some buf) (some t) atEOF ≠ .hang := by
        intro c hc
        rcases parse_term_cases hc buf atEOF with ⟨_, h⟩ | ⟨_, h⟩ | ⟨_, _, _, _, h⟩ | ⟨_, _, _, _, _, _, _, h⟩ |
          ⟨_, _, _, _, _, _, _, _, _, _, h⟩ | ⟨_, _, _, _, _, _, _, _, _, _, _, h⟩ <;> rw [h] <;> simp
      cases t with
      | zeroEnded => exact term _ rfl
      | lfEnded => exact term _ rfl
      | rfc5425 =>
        rcases parse_5425_cases buf atEOF hcap with ⟨_, _, h⟩ | ⟨_, _, _, _, _, h⟩ | ⟨_, _, _, _, _, _, _, _, _, _, _, h⟩ |
          ⟨_, _, _, _, _, _, _, _, _, _, _, _, _, _, _, h⟩ | ⟨_, _, _, _, _, _, _, _, _, _, h⟩ <;> rw [h] <;> simp

/-- C09 (partial): with the LF and NUL transports, `Parse` panics exactly when the buffer (so far) has the
shape of a message without text. Missing: it must not panic, see `C09_no_text_violated`. -/
theorem C09_terminated_panics_exactly_partial (t : Transport) (ht : t = .lfEnded ∨ t = .zeroEnded) (buf : Slice)
    (atEOF : Bool) :
    parse (some buf) (some t) atEOF = .panic ↔ ∃ fs xs, Frame buf.vis fs xs none := by
  obtain ⟨c, hc⟩ : ∃ c, t.term = some c := by rcases ht with rfl | rfl <;> exact ⟨_, rfl⟩
  constructor
  · intro hpan
    rcases parse_term_cases hc buf atEOF with ⟨_, h⟩ | ⟨_, h⟩ | ⟨_, _, _, hL, h⟩ | ⟨_, _, _, _, _, _, _, h⟩ |
          ⟨_, _, _, _, _, _, _, _, _, _, h⟩ | ⟨_, _, _, _, _, _, _, _, _, _, _, h⟩
    · rw [h] at hpan; simp at hpan
    · rw [h] at hpan; simp at hpan
    · exact ⟨_, _, hL.frame⟩
    · rw [h] at hpan; simp at hpan
    · rw [h] at hpan; simp at hpan
    · rw [h] at hpan; simp at hpan
  · rintro ⟨fs, xs, h⟩
    obtain ⟨idx, txt, hL⟩ := h.layout
    exact parse_term_none hc buf atEOF hL

/-- C09 (partial): with the RFC 5425 transport, `Parse` panics exactly on an out of range length header, or,
at end of file, when the payload is truncated and has the shape of a message without text. -/
theorem C09_rfc5425_panics_exactly_partial (buf : Slice) (atEOF : Bool) (hcap : buf.cap < 2 ^ 63) :
    parse (some buf) (some .rfc5425) atEOF = .panic ↔
      ∃ hdr pl l, Framed buf.vis hdr pl l ∧
        (¬ HeaderInRange hdr.length l ∨
          (HeaderInRange hdr.length l ∧ (pl.length : Int) < l ∧ atEOF = true ∧ ∃ fs xs, Frame pl fs xs none)) := by
  constructor
  · intro hpan
    rcases parse_5425_cases buf atEOF hcap with ⟨_, _, h⟩ | ⟨_, _, _, hF, hr, h⟩ | ⟨_, _, _, _, _, _, hF, hr, hl, he, hL, h⟩ |
          ⟨_, _, _, _, _, _, _, _, _, _, _, _, _, _, _, h⟩ | ⟨_, _, _, _, _, _, _, _, _, _, h⟩
    · rw [h] at hpan; simp at hpan
    · exact ⟨_, _, _, hF, Or.inl hr⟩
    · exact ⟨_, _, _, hF, Or.inr ⟨hr, hl, he, _, _, hL.frame⟩⟩
    · rw [h] at hpan; simp at hpan
    · rw [h] at hpan; simp at hpan
  · rintro ⟨hdr, pl, l, ⟨h20, hne, hsp, hb, ha⟩, hc⟩
    have hi : indexByte SP buf.vis = some hdr.length := by
      rw [hb]; have := indexByte_append (q := pl) hsp; simpa using this
    have htake : buf.vis.take hdr.length = hdr := by rw [hb]; simp
    have hdrop : buf.vis.drop (hdr.length + 1) = pl := by
      rw [hb, show hdr.length + 1 = (hdr ++ [32]).length by simp]; exact List.drop_left
    have ha' : atoi (buf.vis.take hdr.length) = some l := by rw [htake]; exact ha
    have hpos : 0 < hdr.length := List.length_pos_iff.mpr hne
    rcases hc with hr | ⟨hr, hl, rfl, fs, xs, hf⟩
    · have : rfc5425.prefixStrip (some buf) atEOF = .panic :=
        (C18_panics_exactly_partial buf atEOF hcap).mpr ⟨_, _, h20, hpos, hi, ha', hr⟩
      unfold parse; simp only; rw [this]; rfl
    · obtain ⟨idx, txt, hL⟩ := hf.layout
      have hp := prefixStrip_5425 buf true h20 hpos hi ha'
      have hlen : buf.len = hdr.length + 1 + pl.length := by simp only [Slice.len, hb]; simp; omega
      have hw : wrap64 (((hdr.length + 1 : Nat) : Int) + l) = ((hdr.length + 1 : Nat) : Int) + l :=
        wrap64_id (by have := hr.1; omega) (by have := hr.2; omega)
      rw [hw, if_pos (by rw [hlen]; omega), if_pos rfl, Slice.from_nat (by rw [hlen]; omega), hdrop] at hp
      simp only [Out.ret_bind, Out.pure_eq] at hp
      unfold parse; simp only; rw [hp]
      simp only [Out.ret_bind]
      rw [if_neg (by simp)]
      simp only [Slice.ofNil_some]
      rw [parseBody_complete (some .rfc5425) true none (some .incomplete) ⟨pl, buf.spare⟩ hL]
      rcases hL.text_cases with ⟨_, rfl⟩ | ⟨pre, y', tx, ho, _⟩
      · rfl
      · simp at ho

/-- C09 is violated: a message without text crashes the parser of the terminated transports (the receiver
calls it on everything read so far, so it is enough that a read ends just before the terminator). -/
theorem C09_no_text_violated :
    parse (some (.exact b!"<1>1 - - - - - -")) (some .lfEnded) false = .panic ∧
    parse (some (.exact b!"<1>1 - - - - - [a b=\"c\"]")) (some .zeroEnded) false = .panic ∧
    parse (some (.exact b!"99 <1>1 - - - - - [a b=\"c\"]")) (some .rfc5425) true = .panic ∧
    parse (some (.exact b!"-1 <1>1 - - - - - [a b=\"c\"]")) (some .rfc5425) true = .panic := by
  decide +kernel

example : parse (some (.exact b!"<1>1 - - - - - - hello\n<2")) (some .lfEnded) false =
    .ret (⟨⟨b!"<1>1 - - - - - - hello", b!"\n<2"⟩, [4, 6, 8, 10, 12, 14, 16], 17⟩, some (.exact b!"<2"), none) := by
  decide +kernel

/-! ## C10 -/

theorem View.readsAs {m : MsgImm} {fs xs o} (h : View m fs xs o) :
    ∃ pri ts host app pid mid, fs = [pri, ts, host, app, pid, mid] ∧
      ReadsAs m pri ts host app pid mid ((o.getD []).drop 1) := by
  obtain ⟨a, b, c, d, e, f, hfs, hp, h0, h1, h2, h3, h4, _⟩ := h.fields
  refine ⟨a, b, c, d, e, f, hfs, ?_, ?_, ?_, ?_, ?_, ?_, h.textOf⟩
  · refine ⟨_, hp, ?_⟩
    by_cases hv : ∃ ds : Bytes, a = b!"<" ++ ds ++ b!">1" ∧ 1 ≤ ds.length ∧ ds.length ≤ 3 ∧ (∀ x ∈ ds, IsDigit x)
    · obtain ⟨ds, g1, g2, g3, g4⟩ := hv
      left
      have := (C02_decoder_grammar 0 (value ds : Nat) a).mpr ⟨ds, g1, g2, g3, g4, rfl⟩
      rw [this]
      exact ⟨ds, g1, g2, g3, g4, rfl⟩
    · right
      obtain ⟨er, he⟩ := C02_decoder_error 0 a hv
      rw [he]
      exact ⟨fun ⟨_, ds, g1, g2, g3, g4, _⟩ => hv ⟨ds, g1, g2, g3, g4⟩, rfl⟩
  · unfold MsgImm.timeStamp; rw [h0]; rfl
  · refine ⟨_, ?_, validator_sanitised c 255⟩; unfold MsgImm.hostname; rw [h1]; rfl
  · refine ⟨_, ?_, validator_sanitised d 48⟩; unfold MsgImm.appName; rw [h2]; rfl
  · refine ⟨_, ?_, validator_sanitised e 128⟩; unfold MsgImm.procID; rw [h3]; rfl
  · refine ⟨_, ?_, validator_sanitised f 32⟩; unfold MsgImm.msgID; rw [h4]; rfl

/-- C10: the accessors of every message returned by `Parse` (with any transport) return the fields that
`String` shows, in order: six non-empty fields followed by one space each, then the structured data
(`-` or the elements), then nothing or one byte and the text. -/
theorem C10_accessors (data : Option Slice) (t : Option Transport) (atEOF : Bool) (m : MsgImm)
    (rest : Option Slice) (e : Option Err) (hcap : (Slice.ofNil data).cap < 2 ^ 63)
    (h : parse data t atEOF = .ret (m, rest, e)) (hm : m ≠ MsgImm.zero) :
    ∃ pri ts host app pid mid sd sep text, ∃ xs : List Bytes,
      m.string = headerText [pri, ts, host, app, pid, mid] ++ sd ++ sep ++ text ∧
      (∀ f ∈ [pri, ts, host, app, pid, mid], RawField f) ∧
      (sd = b!"-" ∧ xs = [] ∨ sd = xs.flatten) ∧ (∀ x ∈ xs, Element x) ∧
      (sep = [] ∧ text = [] ∨ sep.length = 1) ∧
      ReadsAs m pri ts host app pid mid text := by
  obtain ⟨fs, xs, o, hv⟩ := parse_view hcap h hm
  obtain ⟨pri, ts, host, app, pid, mid, rfl, hr⟩ := hv.readsAs
  obtain ⟨sd, hs, hsd⟩ := hv.string
  have hsd' : sd = b!"-" ∧ xs = [] ∨ sd = xs.flatten := by
    rcases hsd with ⟨h1, h2, _⟩ | h
    · exact Or.inl ⟨h1, h2⟩
    · exact Or.inr h
  cases o with
  | none => exact ⟨pri, ts, host, app, pid, mid, sd, [], [], xs, by rw [hs]; simp, hv.raw, hsd', hv.elem, Or.inl ⟨rfl, rfl⟩, hr⟩
  | some q =>
    cases q with
    | nil => exact ⟨pri, ts, host, app, pid, mid, sd, [], [], xs, by rw [hs]; simp, hv.raw, hsd', hv.elem, Or.inl ⟨rfl, rfl⟩, hr⟩
    | cons y r => exact ⟨pri, ts, host, app, pid, mid, sd, [y], r, xs, by rw [hs]; simp, hv.raw, hsd', hv.elem, Or.inr rfl, hr⟩

/-- Elements of a message are decoded from its own bytes. -/
theorem structuredData_total {m : MsgImm} {fs xs o} (hv : View m fs xs o) (reg : List SDID)
    (h : ∀ (x following : Bytes), Element x → (∃ pre, m.buffer.vis ++ m.buffer.spare = pre ++ x ++ following) →
      ∃ r, registryFound reg ⟨x, following⟩ = .ret r) :
    ∃ l, m.structuredData reg = .ret l := by
  rw [hv.structuredData]
  split
  · exact ⟨_, rfl⟩
  · obtain ⟨sd, hs, hsd⟩ := hv.string
    rcases hsd with ⟨_, rfl, _⟩ | rfl
    · exact ⟨[], rfl⟩
    apply decodeAll_total
    intro l x r hx
    apply h x _ (hv.elem x (by rw [hx]; simp))
    refine ⟨headerText fs ++ l.flatten, ?_⟩
    have : m.buffer.vis = headerText fs ++ xs.flatten ++ o.getD [] := hs
    rw [this, hx]
    simp

/-- C10 (partial): `StructuredData` and `Writable` of a message returned by `Parse` do not panic when no
structured data identifier is registered, nor, with the `timequality` package imported, if at least 12
bytes are available from the start of the last element to the end of the buffer's capacity. Missing: see
`C10_short_element_violated`. -/
theorem C10_structuredData_partial (data : Option Slice) (t : Option Transport) (atEOF : Bool) (m : MsgImm)
    (rest : Option Slice) (e : Option Err) (hcap : (Slice.ofNil data).cap < 2 ^ 63)
    (h : parse data t atEOF = .ret (m, rest, e)) (hm : m ≠ MsgImm.zero) :
    (∃ l, m.structuredData [] = .ret l) ∧ (∃ w, m.writable [] = .ret w) ∧
    (12 ≤ m.buffer.spare.length → (∃ l, m.structuredData [tqSDID] = .ret l) ∧ (∃ w, m.writable [tqSDID] = .ret w)) := by
  obtain ⟨fs, xs, o, hv⟩ := parse_view hcap h hm
  obtain ⟨pri, ts, host, app, pid, mid, rfl, hr⟩ := hv.readsAs
  have key : ∀ reg, (∃ l, m.structuredData reg = .ret l) → ∃ w, m.writable reg = .ret w := by
    rintro reg ⟨l, hl⟩
    obtain ⟨⟨p, hp, _⟩, ht, ⟨x1, h1, _⟩, ⟨x2, h2, _⟩, ⟨x3, h3, _⟩, ⟨x4, h4, _⟩, htx⟩ := hr
    unfold MsgImm.writable
    rw [hp, ht, h1, h2, h3, h4, hl, htx]
    exact ⟨_, rfl⟩
  have h1 : ∃ l, m.structuredData [] = .ret l :=
    structuredData_total hv [] (fun x f hx _ => unknownFound_total ⟨x, f⟩ hx.ne_nil)
  refine ⟨h1, key _ h1, ?_⟩
  intro h12
  have h2 : ∃ l, m.structuredData [tqSDID] = .ret l := by
    rw [hv.structuredData]
    split
    · exact ⟨_, rfl⟩
    · apply decodeAll_total
      intro l x r hx
      refine (C24_never_panics_partial ⟨x, _⟩ (hv.elem x (by rw [hx]; simp)).ne_nil).2 ?_
      simp only [Slice.cap, List.length_append]; omega
  exact ⟨h2, key _ h2⟩

/-- C10 is violated: with `timequality` imported, `StructuredData` panics on a message that ends with a short
element in an exactly sized buffer. -/
theorem C10_short_element_violated :
    ∃ m, parse (some (.exact b!"<1>1 - - - - - [a b=\"c\"]")) none true = .ret (m, none, none) ∧
      m.structuredData [tqSDID] = .panic ∧ m.writable [tqSDID] = .panic := by
  refine ⟨_, rfl, rfl, ?_⟩
  rfl

/-- C10 is violated by the message returned when there is no frame: `Parse` returns it with no error too (at the end of
the data, or on empty data), and then all the accessors but `String` and `Text` panic. The empty `String` is the only way
to recognise it. -/
theorem C10_zero_violated :
    (∀ t, ∃ m, parse none (some t) true = .ret (m, none, none) ∧ m.string = []) ∧
    ∀ (data : Option Slice) (t : Option Transport) (atEOF : Bool) (m : MsgImm) (rest : Option Slice) (e : Option Err),
      (Slice.ofNil data).cap < 2 ^ 63 → parse data t atEOF = .ret (m, rest, e) →
      (m.string = [] → m.priority = .panic ∧ m.timeStamp = .panic ∧ m.hostname = .panic ∧ m.appName = .panic ∧
        m.procID = .panic ∧ m.msgID = .panic ∧ (∀ reg, m.structuredData reg = .panic ∧ m.writable reg = .panic) ∧
        m.textOf = .ret []) ∧
      (m.string ≠ [] → m.priority ≠ .panic ∧ m.timeStamp ≠ .panic ∧ m.hostname ≠ .panic ∧ m.appName ≠ .panic ∧
        m.procID ≠ .panic ∧ m.msgID ≠ .panic ∧ m.textOf ≠ .panic) := by
  refine ⟨?_, ?_⟩
  · intro t
    cases t <;> exact ⟨_, rfl, rfl⟩
  · intro data t atEOF m rest e hcap h
    refine ⟨?_, ?_⟩
    · intro hs
      have hz : m = MsgImm.zero := by
        refine Classical.byContradiction fun hm => ?_
        obtain ⟨fs, xs, o, hv⟩ := parse_view hcap h hm
        obtain ⟨pri, ts, host, app, pid, mid, rfl, hr⟩ := hv.readsAs
        obtain ⟨sd, hs', _⟩ := hv.string
        rw [hs] at hs'
        have := congrArg List.length hs'
        simp [headerText] at this
      subst hz
      exact ⟨rfl, rfl, rfl, rfl, rfl, rfl, fun reg => ⟨rfl, rfl⟩, rfl⟩
    · intro hs
      have hm : m ≠ MsgImm.zero := by rintro rfl; exact hs rfl
      obtain ⟨fs, xs, o, hv⟩ := parse_view hcap h hm
      obtain ⟨pri, ts, host, app, pid, mid, rfl, ⟨⟨p, hp, _⟩, ht, ⟨x1, h1, _⟩, ⟨x2, h2, _⟩, ⟨x3, h3, _⟩, ⟨x4, h4, _⟩, htx⟩⟩ :=
        hv.readsAs
      rw [hp, ht, h1, h2, h3, h4, htx]
      simp

example : ∃ m, parse (some (.exact b!"<165>1 2003-10-11T22:14:15.003Z a.b - - ID47 [x a=\"1\"][y b=\"\\]\"] text")) none true =
      .ret (m, none, none) ∧ m.priority = .ret 165 ∧ m.hostname = .ret b!"a.b" ∧ m.msgID = .ret b!"ID47" ∧
      m.timeStamp = .ret ⟨2003, 10, 11, 22, 14, 15, 3000000, 0⟩ ∧ m.textOf = .ret b!"text" := by
  refine ⟨_, rfl, ?_, ?_, ?_, ?_, ?_⟩ <;> decide +kernel

/-! ## C13 -/

/-- C13: without transport, `String` of a parsed message is the input. -/
theorem C13_nil_lossless (data : Slice) (atEOF : Bool) (m : MsgImm) (rest : Option Slice)
    (h : parse (some data) none atEOF = .ret (m, rest, none)) : m.string = data.vis ∧ m.writeTo = data.vis ∧ rest = none := by
  rcases parse_nil_cases (some data) atEOF with ⟨e, h'⟩ | ⟨fs, xs, o, idx, txt, h1, h2⟩
  · rw [h'] at h; simp at h
  · rw [h2] at h
    simp only [Out.ret.injEq, Prod.mk.injEq] at h
    rw [← h.1, ← h.2.1]
    exact ⟨rfl, rfl, rfl⟩

/-- C13: with the LF and NUL transports, the input is the message, the terminator and the rest; or the
message alone (no terminator received yet) and there is no rest. -/
theorem C13_terminated_lossless (t : Transport) (c : UInt8) (ht : t = .lfEnded ∧ c = 10 ∨ t = .zeroEnded ∧ c = 0)
    (data : Slice) (atEOF : Bool) (m : MsgImm) (rest : Option Slice) (e : Option Err)
    (h : parse (some data) (some t) atEOF = .ret (m, rest, e)) (hm : m ≠ MsgImm.zero) :
    (∃ r, rest = some r ∧ data.vis = m.string ++ [c] ++ r.vis) ∨ (rest = none ∧ data.vis = m.string) := by
  have hc : t.term = some c := by rcases ht with ⟨rfl, rfl⟩ | ⟨rfl, rfl⟩ <;> rfl
  rcases parse_term_cases hc data atEOF with ⟨_, h'⟩ | ⟨_, h'⟩ | ⟨_, _, _, _, h'⟩ | ⟨_, _, _, _, _, _, _, h'⟩ |
    ⟨_, _, _, _, _, _, hL, _, _, _, h'⟩ | ⟨_, _, _, _, _, p, q, hL, hp, hb, hV, h'⟩
  · rw [h'] at h; simp at h; exact absurd h.1.symm hm
  · rw [h'] at h; simp at h; exact absurd h.1.symm hm
  · rw [h'] at h; simp at h
  · rw [h'] at h; simp at h; exact absurd h.1.symm hm
  · rw [h'] at h; simp only [Out.ret.injEq, Prod.mk.injEq] at h
    right
    rw [← h.1, ← h.2.1]; exact ⟨rfl, rfl⟩
  · rw [h'] at h; simp only [Out.ret.injEq, Prod.mk.injEq] at h
    left
    refine ⟨_, h.2.1.symm, ?_⟩
    rw [← h.1, hb]; simp [MsgImm.string]

/-- C13 (partial): with the RFC 5425 transport, when there is a rest the input is a length header, the
message of that length and the rest. Missing: see `C13_truncated_violated`. -/
theorem C13_rfc5425_lossless_partial (data : Slice) (hcap : data.cap < 2 ^ 63) (atEOF : Bool) (m : MsgImm) (r : Slice)
    (e : Option Err) (h : parse (some data) (some .rfc5425) atEOF = .ret (m, some r, e)) (hm : m ≠ MsgImm.zero) :
    ∃ hdr, data.vis = hdr ++ b!" " ++ m.string ++ r.vis ∧ atoi hdr = some (m.string.length : Int) ∧ e = none := by
  rcases parse_5425_cases data atEOF hcap with ⟨_, _, h'⟩ | ⟨_, _, _, _, _, h'⟩ | ⟨_, _, _, _, _, _, _, _, _, _, _, h'⟩ |
          ⟨_, _, _, _, _, _, _, _, _, _, _, _, _, _, hL, h'⟩ | ⟨hdr, d, r', _, _, _, _, _, hF, hL, h'⟩
  · rw [h'] at h; simp at h; exact absurd h.1.symm hm
  · rw [h'] at h; simp at h
  · rw [h'] at h; simp at h
  · rw [h'] at h; simp at h
  · rw [h'] at h; simp only [Out.ret.injEq, Prod.mk.injEq, Option.some.injEq] at h
    obtain ⟨rfl, rfl, rfl⟩ := h
    obtain ⟨_, _, _, hb, ha⟩ := hF
    exact ⟨hdr, by rw [hb]; simp [MsgImm.string], ha, rfl⟩

/-- C13 is violated at end of file: a truncated RFC 5425 frame is returned as a message, without error. -/
theorem C13_truncated_violated :
    ∃ m, parse (some (.exact b!"99 <1>1 - - - - - - truncat")) (some .rfc5425) true = .ret (m, none, none) ∧
      m.textOf = .ret b!"truncat" := by
  exact ⟨_, rfl, by decide +kernel⟩

/-- C13 is violated: the byte between the structured data and the text is dropped whatever it is, and a
frame without valid structured data is accepted, minus its first text byte. -/
theorem C13_separator_violated :
    (∃ m, parse (some (.exact b!"<1>1 - - - - - [a b=\"c\"]Xtext")) none true = .ret (m, none, none) ∧ m.textOf = .ret b!"text") ∧
    (∃ m, parse (some (.exact b!"<1>1 - - - - - hello world")) none true = .ret (m, none, none) ∧
      m.textOf = .ret b!"ello world" ∧ m.structuredData [] = .ret []) := by
  exact ⟨⟨_, rfl, by decide +kernel⟩, ⟨_, rfl, by decide +kernel, rfl⟩⟩

/-- C13: when the structured data is `-` the separator is a space: nothing is dropped. -/
theorem C13_dash_separator (data : Slice) (atEOF : Bool) (m : MsgImm) (rest : Option Slice)
    (h : parse (some data) none atEOF = .ret (m, rest, none)) (fs : List Bytes) (tail : Bytes)
    (h6 : fs.length = 6) (hf : ∀ f ∈ fs, RawField f) (hd : data.vis = headerText fs ++ b!"-" ++ tail)
    (hsp : tail = [] ∨ tail.head? = some 32) :
    m.textOf = .ret (tail.drop 1) ∧ m.structuredData [] = .ret [] := by
  have : ∃ o idx txt, Layout data.vis fs [] o idx txt ∧ ((o.getD []).drop 1) = tail.drop 1 := by
    cases tail with
    | nil => exact ⟨none, _, _, by rw [hd]; simpa using Layout.dash h6 hf, rfl⟩
    | cons y t =>
      simp at hsp; subst hsp
      exact ⟨some (SP :: t), _, _, by rw [hd]; have := Layout.dashText (t := t) h6 hf; simpa using this, rfl⟩
  obtain ⟨o, idx, txt, hL, ho⟩ := this
  have hp := parseBody_complete none atEOF none none data hL
  have hp' : parse (some data) none atEOF = .ret (⟨data, idx, txt⟩, none, none) := hp
  rw [hp'] at h
  simp only [Out.ret.injEq, Prod.mk.injEq] at h
  rw [← h.1]
  refine ⟨?_, ?_⟩
  · rw [hL.view.textOf, ho]
  · rw [hL.view.structuredData]; simp

end Syslog5424
