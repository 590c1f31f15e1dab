import Verif.Spec.Forward
import Verif.Props.Relay
import Verif.Props.Content
import Verif.Props.TimeRead
import Verif.Props.Footprint
/-! # C107: forwarding whatever was received -/
namespace Syslog5424
open Spec

theorem timeReads_loose {s : Bytes} {t : Time} (h : TimeReads s t) : ({ t with off := 0 } : Time).Valid ∧ t.off.natAbs ≤ 90000 ∧ t.off % 60 = 0 := by
  obtain ⟨yy, mo, dd, hh, mm, ss, fr, z, year, _, hy, ey, _, m1, m2, _, d1, d2, _, ho, _, hm, _, hs, hfr, hz⟩ := h
  have hyear : year ≤ 9999 := by
    obtain ⟨g1, g2, g3⟩ := hy
    have := decVal_lt yy g2
    rw [decVal_eq_value, g3, g1] at this
    omega
  refine ⟨⟨by simp only; omega, ⟨m1, m2⟩, ⟨d1, ?_⟩, ho, hm, hs, ?_, by simp⟩, ?_⟩
  · rw [ey]; simpa using d2
  · simp only
    rcases hfr with ⟨_, h⟩ | ⟨sep, ds, _, hne, hd, _, h⟩
    · omega
    · have hl : (ds.take 9).length ≤ 9 := by rw [List.length_take]; omega
      have := decVal_lt (ds.take 9) (fun x hx => hd x (List.mem_of_mem_take hx))
      rw [decVal_eq_value] at this
      rw [h]
      calc value (ds.take 9) * 10 ^ (9 - (ds.take 9).length) < 10 ^ (ds.take 9).length * 10 ^ (9 - (ds.take 9).length) :=
            Nat.mul_lt_mul_of_pos_right this (Nat.pow_pos (by omega))
        _ = 10 ^ 9 := by rw [← Nat.pow_add]; congr 1; omega
  · rcases hz with ⟨_, h⟩ | ⟨sg, a, b, x, y, _, _, _, hx, hy', h⟩
    · omega
    · rcases h with ⟨_, h⟩ | ⟨_, h⟩ <;> omega

theorem timeReads_valid {s : Bytes} {t : Time} (h : TimeReads s t) (h1 : t.off ≠ 90000) (h2 : t.off ≠ -90000) : t.Valid := by
  obtain ⟨g, g1, g2⟩ := timeReads_loose h
  exact ⟨g.year, g.month, g.day, g.hour, g.minute, g.second, g.nsec, by omega⟩

theorem timeZero_valid : Time.zero.Valid := by constructor <;> decide

theorem timeParse_valid (s : Bytes) (h1 : ((Time.parse s).getD Time.zero).off ≠ 90000) (h2 : ((Time.parse s).getD Time.zero).off ≠ -90000) :
    ((Time.parse s).getD Time.zero).Valid := by
  cases h : Time.parse s with
  | none => exact timeZero_valid
  | some t =>
    rw [h] at h1 h2
    exact timeReads_valid ((timeParse_iff s t).mp h) h1 h2

theorem Out.bind_ret {α β : Type} {o : Out α} {f : α → Out β} {b : β} (h : (o >>= f) = .ret b) : ∃ a, o = .ret a ∧ f a = .ret b := by
  cases o with
  | ret a => exact ⟨a, rfl, by simpa using h⟩
  | panic => simp at h
  | hang => simp at h

/-- What `Writable` makes of any message, without registered identifiers. -/
theorem writable_parts {p : MsgImm} {w : Message} (h : p.writable [] = .ret w) :
    (0 ≤ (w.prio : Int) ∧ (w.prio : Int) ≤ 999) ∧ ValidField 255 w.hostname ∧ ValidField 48 w.appname ∧ ValidField 128 w.procid ∧ ValidField 32 w.msgid ∧
    (∃ ts, w.timestamp = (Time.parse ts).getD Time.zero) ∧ (∃ els, MarshalsTo w.sd els) ∧ p.structuredData [] = .ret w.sd ∧ p.textOf = .ret w.message := by
  unfold MsgImm.writable at h
  obtain ⟨pr, h1, h⟩ := Out.bind_ret h
  obtain ⟨t, h2, h⟩ := Out.bind_ret h
  obtain ⟨ho, h3, h⟩ := Out.bind_ret h
  obtain ⟨a, h4, h⟩ := Out.bind_ret h
  obtain ⟨pi, h5, h⟩ := Out.bind_ret h
  obtain ⟨mi, h6, h⟩ := Out.bind_ret h
  obtain ⟨sd, h7, h⟩ := Out.bind_ret h
  obtain ⟨tx, h8, h⟩ := Out.bind_ret h
  simp only [Out.pure_eq, Out.ret.injEq] at h
  subst h
  refine ⟨?_, ?_, ?_, ?_, ?_, ?_, ?_, h7, h8⟩
  · unfold MsgImm.priority at h1
    obtain ⟨i, _, h1⟩ := Out.bind_ret h1
    obtain ⟨b, _, h1⟩ := Out.bind_ret h1
    simp only [Out.pure_eq, Out.ret.injEq] at h1
    show 0 ≤ (pr : Int) ∧ (pr : Int) ≤ 999
    subst h1
    by_cases hv : ∃ ds : Bytes, b.vis = b!"<" ++ ds ++ b!">1" ∧ 1 ≤ ds.length ∧ ds.length ≤ 3 ∧ (∀ x ∈ ds, IsDigit x)
    · obtain ⟨ds, g1, g2, g3, g4⟩ := hv
      have := (C02_decoder_grammar 0 (value ds : Nat) b.vis).mpr ⟨ds, g1, g2, g3, g4, rfl⟩
      rw [this]
      have hlt := decVal_lt ds g4
      rw [decVal_eq_value] at hlt
      have h1000 : (10 : Nat) ^ ds.length ≤ 10 ^ 3 := Nat.pow_le_pow_right (by omega) g3
      show 0 ≤ ((value ds : Nat) : Int) ∧ ((value ds : Nat) : Int) ≤ 999
      omega
    · obtain ⟨er, he⟩ := C02_decoder_error 0 b.vis hv
      rw [he]
      show (0 : Int) ≤ 0 ∧ (0 : Int) ≤ 999
      omega
  · obtain ⟨b, _, h3⟩ := Out.bind_ret h3
    simp only [Out.pure_eq, Out.ret.injEq] at h3
    rw [← h3]; exact validator_valid b (by decide)
  · obtain ⟨b, _, h4⟩ := Out.bind_ret h4
    simp only [Out.pure_eq, Out.ret.injEq] at h4
    rw [← h4]; exact validator_valid b (by decide)
  · obtain ⟨b, _, h5⟩ := Out.bind_ret h5
    simp only [Out.pure_eq, Out.ret.injEq] at h5
    rw [← h5]; exact validator_valid b (by decide)
  · obtain ⟨b, _, h6⟩ := Out.bind_ret h6
    simp only [Out.pure_eq, Out.ret.injEq] at h6
    rw [← h6]; exact validator_valid b (by decide)
  · obtain ⟨b, _, h2⟩ := Out.bind_ret h2
    simp only [Out.pure_eq, Out.ret.injEq] at h2
    exact ⟨b, h2.symm⟩
  · obtain ⟨els, rfl, hels⟩ := structuredData_unknown _ _ h7
    refine ⟨els, ?_, hels⟩
    rw [List.map_map]
    apply List.map_congr_left
    intro x _
    show (Out.ret (Except.ok (unknownMarshal x.1 x.2)) : Res Bytes) = _
    rw [unknownMarshal_eq]

/-- **C107**, exact. Whatever message was made writable (without registered identifiers), its priority, header fields, time, structured data and text can
be written and read back by the next one who receives it exactly when the priority is below 300, the offset of the time is not 25
hours, and next to structured data every `]` in the text comes right after a backslash and is not the last byte. -/
theorem C107_intact_iff (p : MsgImm) (w : Message) (h : p.writable [] = .ret w) :
    Intact w ↔ (w.prio : Int) ≤ 299 ∧ (w.timestamp.off ≠ 90000 ∧ w.timestamp.off ≠ -90000) ∧ (w.sd ≠ [] → FreeText w.message) := by
  obtain ⟨h1, h2, h3, h4, h5, ⟨ts, h6⟩, h7, _, _⟩ := writable_parts h
  constructor
  · intro g
    have := g.time.off
    exact ⟨g.header.prio.2, by omega, g.text⟩
  · rintro ⟨g1, g2, g3⟩
    refine ⟨⟨⟨h1.1, g1⟩, h2, h3, h4, h5⟩, ?_, h7, g3⟩
    rw [h6] at g2 ⊢
    exact timeParse_valid ts g2.1 g2.2

theorem items_quiet {b : Bytes} {xs : List Bytes} {o : Option Bytes} (h : Items b xs o) {q : Bytes} (hq : o = some q) : Quiet q := by
  induction h with
  | stop => simp at hq
  | quiet h => simp at hq; subst hq; exact h
  | more _ _ ih => exact ih hq

theorem layout_quiet {b : Bytes} {fs xs : List Bytes} {q : Bytes} {idx : List Int} {txt : Int} (h : Layout b fs xs (some q) idx txt) (hx : xs ≠ []) : Quiet q := by
  generalize ho : some q = o at h
  cases h with
  | dash => exact absurd rfl hx
  | dashText => exact absurd rfl hx
  | sd _ _ h => exact items_quiet h ho.symm

/-- What is known of the text behind structured data. -/
theorem parse_view_quiet {data : Option Slice} {t : Option Transport} {atEOF : Bool} {m : MsgImm} {rest : Option Slice}
    {e : Option Err} (hcap : (Slice.ofNil data).cap < 2 ^ 63) (h : parse data t atEOF = .ret (m, rest, e))
    (hm : m ≠ MsgImm.zero) : ∃ fs xs o, View m fs xs o ∧ ∀ q, xs ≠ [] → o = some q → ∃ r, Quiet (q ++ r) := by
  have lay : ∀ {data : Slice} {fs xs o idx txt}, Layout data.vis fs xs o idx txt →
      ∃ fs xs o, View ⟨data, idx, txt⟩ fs xs o ∧ ∀ q, xs ≠ [] → o = some q → ∃ r, Quiet (q ++ r) := by
    intro data fs xs o idx txt h
    refine ⟨_, _, _, h.view, ?_⟩
    rintro q hx rfl
    exact ⟨[], by rw [List.append_nil]; exact layout_quiet h hx⟩
  cases t with
  | none =>
    rcases parse_nil_cases data atEOF with ⟨e', h'⟩ | ⟨fs, xs, o, idx, txt, h1, h2⟩
    · rw [h'] at h; simp at h; exact absurd h.1.symm hm
    · rw [h2] at h; simp at h; rw [← h.1]; exact lay h1
  | some t =>
    cases data with
    | none =>
      have : parse none (some t) atEOF = .ret (MsgImm.zero, none, none) := by cases t <;> rfl
      rw [this] at h; simp at h; exact absurd h.1.symm hm
    | some buf =>
      have term : ∀ c, t.term = some c → ∃ fs xs o, View m fs xs o ∧ ∀ q, xs ≠ [] → o = some q → ∃ r, Quiet (q ++ r) := by
        intro c hc
        rcases parse_term_cases hc buf atEOF with ⟨_, h'⟩ | ⟨_, h'⟩ | ⟨_, _, _, _, h'⟩ | ⟨_, _, _, _, _, _, _, h'⟩ |
          ⟨_, _, _, _, _, _, hL, _, _, _, h'⟩ | ⟨_, _, _, _, y, p, q, hL, hv, _, hV, h'⟩
        · rw [h'] at h; simp at h; exact absurd h.1.symm hm
        · rw [h'] at h; simp at h; exact absurd h.1.symm hm
        · rw [h'] at h; simp at h
        · rw [h'] at h; simp at h; exact absurd h.1.symm hm
        · rw [h'] at h; simp only [Out.ret.injEq, Prod.mk.injEq] at h; rw [← h.1]; exact lay hL
        · rw [h'] at h; simp only [Out.ret.injEq, Prod.mk.injEq] at h; rw [← h.1]
          refine ⟨_, _, _, hV _ _, ?_⟩
          intro q' hx hq
          simp only [Option.some.injEq] at hq
          subst hq
          exact ⟨c :: q, by simpa using layout_quiet hL hx⟩
      cases t with
      | zeroEnded => exact term _ rfl
      | lfEnded => exact term _ rfl
      | rfc5425 =>
        rcases parse_5425_cases buf atEOF hcap with ⟨_, _, h'⟩ | ⟨_, _, _, _, _, h'⟩ | ⟨_, _, _, _, _, _, _, _, _, _, _, h'⟩ |
          ⟨_, _, _, _, _, _, _, _, _, _, _, _, _, _, hL, h'⟩ | ⟨_, _, _, _, _, _, _, _, _, hL, h'⟩
        · rw [h'] at h; simp at h; exact absurd h.1.symm hm
        · rw [h'] at h; simp at h
        · rw [h'] at h; simp at h
        · rw [h'] at h; simp only [Out.ret.injEq, Prod.mk.injEq] at h; rw [← h.1]
          exact lay (data := ⟨_, _⟩) hL
        · rw [h'] at h; simp only [Out.ret.injEq, Prod.mk.injEq] at h; rw [← h.1]
          exact lay (data := ⟨_, _⟩) hL

/-- The text behind structured data, in a message returned by `Parse`: every `]` that is not its first byte comes right after a backslash. -/
theorem text_brackets {data : Option Slice} {t : Option Transport} {atEOF : Bool} {m : MsgImm} {rest : Option Slice}
    {e : Option Err} (hcap : (Slice.ofNil data).cap < 2 ^ 63) (h : parse data t atEOF = .ret (m, rest, e))
    (hm : m ≠ MsgImm.zero) {l : List SD} (hl : m.structuredData [] = .ret l) (hne : l ≠ []) {tx : Bytes} (htx : m.textOf = .ret tx) :
    ∀ a b, tx = a ++ 93 :: b → a ≠ [] → a.getLast? = some 92 := by
  obtain ⟨fs, xs, o, hv, hq⟩ := parse_view_quiet hcap h hm
  have hxs : xs ≠ [] := by
    rintro rfl
    rw [hv.structuredData] at hl
    simp at hl
    exact hne hl
  rw [hv.textOf] at htx
  simp only [Out.ret.injEq] at htx
  intro a b e ha
  cases o with
  | none => simp at htx; subst htx; simp at e
  | some q =>
    obtain ⟨r, hr⟩ := hq q hxs rfl
    have hf := (quiet_iff.mp hr).2
    cases q with
    | nil => simp at htx; subst htx; simp at e
    | cons y q =>
      simp at htx
      subst htx
      have := (hf (y :: a) (b ++ r) (by rw [e]; simp)).1
      cases a with
      | nil => exact absurd rfl ha
      | cons c a => simpa using this

/-- **C107**, one message. Whatever bytes were received, and over whatever transport: every message that `Parse` returned (with no
registered identifiers) can be made writable, and, if its priority is below 300, the offset of its time is not 25 hours and its
text, next to structured data, neither begins nor ends with `]`, it can be written, and then whoever receives it gets it without
loss: `Parse` reads the written bytes without an error, all fields are those of the message that was written, and
written once more it has the same bytes again. Missing: the other messages, see `C107_priority_violated`, `C107_offset_violated`, `C107_text_violated`,
`C107_line_violated`. -/
theorem C107_forwarded_partial (data : Option Slice) (t : Option Transport) (atEOF : Bool) (p : MsgImm) (rest : Option Slice) (e : Option Err)
    (hcap : (Slice.ofNil data).cap < 2 ^ 63) (h : parse data t atEOF = .ret (p, rest, e)) (hm : p ≠ MsgImm.zero) :
    ∃ w, p.writable [] = .ret w ∧ (Forwardable w → Intact w ∧ ∃ b, w.marshal = .ret (.ok b) ∧
      ∀ spare eof arr, ∃ p2 w2, parse (some ⟨b, spare⟩) none eof = .ret (p2, none, none) ∧ IsReceived w ⟨arr, p2, none⟩ ∧
        p2.writable [] = .ret w2 ∧ Intact w2 ∧ w2.marshal = .ret (.ok b)) := by
  obtain ⟨_, ⟨w, hw⟩, _⟩ := C10_structuredData_partial data t atEOF p rest e hcap h hm
  refine ⟨w, hw, fun hf => ?_⟩
  obtain ⟨_, _, _, _, _, _, _, h8, h9⟩ := writable_parts hw
  have hI : Intact w := (C107_intact_iff p w hw).mpr ⟨hf.prio, hf.offset, fun hne a b e => by
    obtain ⟨g1, g2⟩ := hf.text hne
    refine ⟨text_brackets hcap h hm h8 hne h9 a b e ?_, ?_⟩
    · rintro rfl; rw [e] at g1; simp at g1
    · rintro rfl; rw [e] at g2; simp at g2⟩
  refine ⟨hI, ?_⟩
  obtain ⟨els, hels⟩ := hI.sd
  obtain ⟨b, idx, txt, hb, hL⟩ := layout_msg hI.header hels (fun h1 _ => quiet_text (hI.text h1))
  refine ⟨b, hb, fun spare eof arr => ?_⟩
  have hv := Layout.view (data := ⟨b, spare⟩) hL
  have hr : IsReceived w ⟨arr, ⟨⟨b, spare⟩, idx, txt⟩, none⟩ := by
    obtain ⟨pri, ts, host, app, pid, mid, e1, e2⟩ := hv.readsAs
    refine isReceived_of hI hels rfl hb e1 e2 ?_ (fun reg f hf2 => hv.elements rfl reg f hf2)
    split
    · next hm => rw [hm]; rfl
    · rfl
  have hrep : Reproduces [] w := by
    intro v hv
    have : v.marshal ∈ w.sd.map SD.marshal := List.mem_map_of_mem hv
    rw [hels.1, List.mem_map] at this
    obtain ⟨x, hx, he⟩ := this
    obtain ⟨b, hm, hb, _⟩ := C22_encode_decode_partial x.1 x.2 (hels.2 x hx).1 (hels.2 x hx).2 []
    subst hb
    refine ⟨.unknown x.1 x.2, ⟨_, he.symm, fun fol => ?_⟩, by rw [← he]; exact hm⟩
    obtain ⟨b', _, hb', hd⟩ := C22_encode_decode_partial x.1 x.2 (hels.2 x hx).1 (hels.2 x hx).2 fol
    subst hb'
    exact hd
  obtain ⟨w2, k1, k2, k3, _⟩ := C106_hop_partial [] w _ hr hI.time hrep
  refine ⟨_, w2, parse_layout ⟨b, spare⟩ eof hL, hr, k1, ?_, by rw [k2]; exact hb⟩
  obtain ⟨_, _, _, _, _, _, _, h8', h9'⟩ := writable_parts k1
  refine (C107_intact_iff _ _ k1).mpr ⟨?_, ?_, ?_⟩
  · have := hr.priority
    obtain ⟨pr, g1, g2⟩ := Out.bind_ret k1
    rw [this] at g1
    simp only [Out.ret.injEq] at g1
    subst g1
    obtain ⟨t, g3, g2⟩ := Out.bind_ret g2
    obtain ⟨ho, _, g2⟩ := Out.bind_ret g2
    obtain ⟨a, _, g2⟩ := Out.bind_ret g2
    obtain ⟨pi, _, g2⟩ := Out.bind_ret g2
    obtain ⟨mi, _, g2⟩ := Out.bind_ret g2
    obtain ⟨sd, _, g2⟩ := Out.bind_ret g2
    obtain ⟨tx, _, g2⟩ := Out.bind_ret g2
    simp only [Out.pure_eq, Out.ret.injEq] at g2
    subst g2
    exact hf.prio
  · have := k3.off
    omega
  · intro hne
    have htx := hr.text
    rw [h9'] at htx
    simp only [Out.ret.injEq] at htx
    rw [htx]
    apply hI.text
    intro h0
    obtain ⟨l, g1, g2⟩ := hr.structuredData
    rw [h8'] at g1
    simp only [Out.ret.injEq] at g1
    rw [← g1, h0] at g2
    simp at g2
    exact hne g2

/-! ### the size of what is forwarded -/

theorem spacedText_single (l : List (Nat × Bytes × Bytes)) : (((l.map (·.2)).map fun p => b!" " ++ paramText p).flatten).length ≤ (spacedText l).length := by
  induction l with
  | nil => simp
  | cons a l ih =>
    simp only [List.map_cons, List.flatten_cons, List.length_append, List.length_cons, List.length_nil, spacedText, List.length_replicate] at ih ⊢
    omega

theorem decodeAll_length (fol : Bytes) : ∀ (xs : List Bytes) (l : List SD), decodeAll [] fol xs = .ret l →
    ∃ els : List (Bytes × List (Bytes × Bytes)), l = els.map (fun x => .unknown x.1 x.2) ∧
      ((els.map fun x => elementText x.1 x.2).flatten).length ≤ xs.flatten.length := by
  intro xs
  induction xs with
  | nil => intro l h; simp [decodeAll] at h; exact ⟨[], by simp [h], by simp⟩
  | cons x r ih =>
    intro l h
    unfold decodeAll at h
    obtain ⟨o, h1, h⟩ := Out.bind_ret h
    obtain ⟨l', h2, h⟩ := Out.bind_ret h
    obtain ⟨els, e1, e2⟩ := ih l' h2
    cases o with
    | none =>
      simp only [Out.pure_eq, Out.ret.injEq] at h
      subst h
      refine ⟨els, e1, ?_⟩
      simp only [List.flatten_cons, List.length_append]; omega
    | some sd =>
      simp only [Out.pure_eq, Out.ret.injEq] at h
      subst h
      obtain ⟨id, p, rfl, hv, _⟩ := unknownFound_sound (show unknownFound ⟨x, r.flatten ++ fol⟩ = .ret (some sd) from h1)
      refine ⟨(id, p.map (·.2)) :: els, by simp [e1], ?_⟩
      have := spacedText_single p
      simp only at hv
      simp only [List.map_cons, List.flatten_cons, List.length_append, elementText, hv, List.length_cons, List.length_nil] at e2 ⊢
      omega

theorem unknown_elements {els els' : List (Bytes × List (Bytes × Bytes))}
    (h : els.map (fun x => SD.marshal (.unknown x.1 x.2)) = els'.map (fun x => (Out.ret (Except.ok (elementText x.1 x.2)) : Res Bytes))) :
    els.map (fun x => elementText x.1 x.2) = els'.map fun x => elementText x.1 x.2 := by
  induction els generalizing els' with
  | nil => cases els' with
    | nil => rfl
    | cons => simp at h
  | cons a els ih => cases els' with
    | nil => simp at h
    | cons b els' =>
      simp only [List.map_cons, List.cons.injEq] at h ⊢
      refine ⟨?_, ih h.2⟩
      have := h.1
      change (Out.ret (Except.ok (unknownMarshal a.1 a.2)) : Res Bytes) = _ at this
      rw [unknownMarshal_eq] at this
      simpa using this

theorem trimZeros_length (b : Bytes) : (Time.trimZeros b).length ≤ b.length := by
  unfold Time.trimZeros
  rw [List.length_reverse]
  have := (List.dropWhile_suffix (fun x : UInt8 => x == 48) (l := b.reverse)).length_le
  rwa [List.length_reverse] at this

theorem format_short {t : Time} (h : ({ t with off := 0 } : Time).Valid) (ho : t.off.natAbs ≤ 90000) : t.format.length ≤ 32 := by
  have h1 := h.year
  have h2 := h.month
  have h3 := h.day
  have h4 := h.hour
  have h5 := h.minute
  have h6 := h.second
  simp only at h1 h2 h3 h4 h5 h6
  have hd : t.day ≤ 31 := by
    have := h3.2
    unfold monthDays at this
    split at this
    · split at this <;> omega
    · split at this <;> omega
  have e1 : (Time.padInt 4 t.year).length = 4 := by
    unfold Time.padInt
    rw [if_neg (by omega)]
    exact Time.padNat_length (by omega) (by omega)
  have e2 : (Time.padNat 2 t.month).length = 2 := Time.padNat_length (by omega) (by omega)
  have e3 : (Time.padNat 2 t.day).length = 2 := Time.padNat_length (by omega) (by omega)
  have e4 : (Time.padNat 2 t.hour).length = 2 := Time.padNat_length (by omega) (by omega)
  have e5 : (Time.padNat 2 t.minute).length = 2 := Time.padNat_length (by omega) (by omega)
  have e6 : (Time.padNat 2 t.second).length = 2 := Time.padNat_length (by omega) (by omega)
  have e7 : (Time.fmtFrac t.nsec).length ≤ 7 := by
    unfold Time.fmtFrac
    have := trimZeros_length ((Time.padNat 9 t.nsec).take 6)
    rw [List.length_take] at this
    split
    · simp
    · simp only; split
      · simp
      · simp only [List.length_cons]; omega
  have e8 : (Time.fmtZone t.off).length ≤ 6 := by
    unfold Time.fmtZone
    split
    · simp
    · simp only [List.length_cons, List.length_append, List.length_nil]
      have a : (t.off.tdiv 60).natAbs = t.off.natAbs / 60 := Int.natAbs_tdiv _ _
      rw [Time.padNat_length (by omega) (by omega), Time.padNat_length (by omega) (by omega)]
  unfold Time.format
  simp only [List.length_append, List.length_cons, List.length_nil]
  omega

theorem timeParse_short (s : Bytes) : ((Time.parse s).getD Time.zero).format.length ≤ 32 := by
  cases h : Time.parse s with
  | none => exact format_short timeZero_valid (by decide)
  | some t =>
    obtain ⟨h1, h2, _⟩ := timeReads_loose ((timeParse_iff s t).mp h)
    exact format_short h1 h2

/-- **C107**, the size: what is written for a message that was received (with no registered identifiers) is never more than 512 bytes longer than the received one. -/
theorem C107_size (data : Option Slice) (t : Option Transport) (atEOF : Bool) (p : MsgImm) (rest : Option Slice) (e : Option Err)
    (hcap : (Slice.ofNil data).cap < 2 ^ 63) (h : parse data t atEOF = .ret (p, rest, e)) (hm : p ≠ MsgImm.zero) (w : Message)
    (hw : p.writable [] = .ret w) (b : Bytes) (hb : w.marshal = .ret (.ok b)) :
    b.length ≤ p.string.length + 512 := by
  obtain ⟨h1, h2, h3, h4, h5, ⟨ts, h6⟩, ⟨els, h7⟩, h8, h9⟩ := writable_parts hw
  obtain ⟨fs, xs, o, hv⟩ := parse_view hcap h hm
  obtain ⟨sd, hs1, hs2⟩ := hv.string
  have htx : w.message.length ≤ (o.getD []).length := by
    rw [hv.textOf] at h9
    simp only [Out.ret.injEq] at h9
    rw [← h9, List.length_drop]; omega
  have hsd : ∃ s, sdListMarshal w.sd = .ret (.ok s) ∧ s.length ≤ xs.flatten.length + 1 := by
    by_cases hne : w.sd = []
    · rw [hne]; exact ⟨b!"-", rfl, by simp⟩
    · refine ⟨_, h7.list hne, ?_⟩
      rw [hv.structuredData] at h8
      split at h8
      · simp only [Out.ret.injEq] at h8; exact absurd h8.symm hne
      · obtain ⟨els', e1, e2⟩ := decodeAll_length _ _ _ h8
        have := h7.1
        rw [e1, List.map_map] at this
        rw [← unknown_elements this]
        omega
  obtain ⟨s, hs, hsl⟩ := hsd
  have hxs : xs.flatten.length ≤ sd.length := by
    rcases hs2 with ⟨_, rfl, _⟩ | rfl <;> simp
  rw [marshal_eq w s hs] at hb
  simp only [Out.ret.injEq, Except.ok.injEq] at hb
  subst hb
  have hf := timeParse_short ts
  rw [← h6] at hf
  have hp : (Priority.marshal w.prio).length ≤ 6 := by
    unfold Priority.marshal; simp only; split
    · simp
    · split <;> simp
  have hh := h2.2.1
  have ha := h3.2.1
  have hpi := h4.2.1
  have hmi := h5.2.1
  rw [hs1]
  simp only [headerText, wireFields, List.flatMap_cons, List.flatMap_nil, List.length_append, List.length_cons, List.length_nil]
  split <;> simp only [List.length_nil, List.length_cons] <;> omega

/-! ### what `Receive` returns -/

/-- With a rest and no error, `Parse` returns a message. -/
theorem parse_ok_nonzero {data : Slice} {t : Transport} {eof : Bool} {m : MsgImm} {r : Slice} (hcap : data.cap < 2 ^ 63)
    (h : parse (some data) (some t) eof = .ret (m, some r, none)) : m ≠ MsgImm.zero := by
  rintro rfl
  have term : ∀ c, t.term = some c → False := by
    intro c hc
    rcases parse_term_cases hc data eof with ⟨_, h'⟩ | ⟨_, h'⟩ | ⟨_, _, _, _, h'⟩ | ⟨_, _, _, _, _, _, _, h'⟩ |
      ⟨_, _, _, _, _, _, hL, _, _, _, h'⟩ | ⟨_, _, _, _, y, p, q, hL, hv, _, hV, h'⟩ <;> rw [h'] at h
    · simp at h
    · simp at h
    · simp at h
    · simp at h
    · simp at h
    · simp only [Out.ret.injEq, Prod.mk.injEq, MsgImm.zero, MsgImm.mk.injEq] at h
      have := h.1.2.2
      omega
  cases t with
  | zeroEnded => exact term _ rfl
  | lfEnded => exact term _ rfl
  | rfc5425 =>
    have hcap2 : data.vis.length < 2 ^ 63 := by simp only [Slice.cap] at hcap; omega
    unfold parse at h
    simp only at h
    rcases prefixStrip_cases data eof hcap with ⟨_, hp⟩ | ⟨_, _, hp⟩ | ⟨n, _, _, _, _, hp⟩ |
      ⟨n, l, h20, hn, hi, ha, hr, hp⟩ | ⟨n, l, h20, hn, hi, ha, hr, hlt, hp⟩ | ⟨n, k, h20, hn, hi, ha, hk, hp⟩
    · rw [hp] at h; cases eof <;> simp at h
    · have e : parseBody ⟨[], []⟩ none (some .noHeader) (some .rfc5425) eof = .ret (MsgImm.zero, none, some .noHeader) := rfl
      rw [hp] at h; simp [e] at h
    · have e : parseBody ⟨[], []⟩ none (some .invHeader) (some .rfc5425) eof = .ret (MsgImm.zero, none, some .invHeader) := rfl
      rw [hp] at h; simp [e] at h
    · rw [hp] at h; simp at h
    · rw [hp] at h
      cases eof with
      | false => simp at h
      | true =>
        simp only [if_true, Out.ret_bind] at h
        rw [if_neg (by simp)] at h
        simp only [Slice.ofNil_some] at h
        rcases parseBody_truncated ⟨data.vis.drop (n + 1), data.spare⟩ with h' | ⟨fs, xs, idx, hL, h'⟩ | ⟨_, _, _, _, _, _, h'⟩ |
              ⟨fs, xs, y, tx, idx, txt, htx, hL, h'⟩ <;> rw [h'] at h <;> simp at h
    · rw [hp] at h
      simp only [Out.ret_bind] at h
      rw [if_neg (by simp)] at h
      simp only [Slice.ofNil_some] at h
      rcases parseBody_rest ⟨(data.vis.take (n + 1 + k)).drop (n + 1), data.vis.drop (n + 1 + k) ++ data.spare⟩
        ⟨data.vis.drop (n + 1 + k), data.spare⟩ eof with ⟨e, h'⟩ | ⟨fs, xs, o, idx, txt, hL, h'⟩
      · rw [h'] at h; simp at h
      · rw [h'] at h
        simp only [Out.ret.injEq, Prod.mk.injEq] at h
        exact (Layout.view (data := ⟨_, _⟩) hL).ne_zero h.1

namespace Tok

/-- A message that the tokenizer delivered was returned by `Parse`, from bytes of the read buffer. -/
def FromParse (t : Transport) (x : MsgImm × Option Err) : Prop :=
  ∃ data eof r, data.cap ≤ readBuffer ∧ parse (some data) (some t) eof = .ret (x.1, some r, x.2)

theorem parseLoop_from {t : Transport} {eof : Bool} (fuel : Nat) : ∀ {data : Slice} {out0 out : List (MsgImm × Option Err)}
    {data' : Slice}, data.cap ≤ readBuffer → parseLoop t eof fuel data out0 = .ret (data', out) →
    (∀ x ∈ out0, FromParse t x) → ∀ x ∈ out, FromParse t x := by
  induction fuel with
  | zero => intro data out0 out data' _ h; simp [parseLoop] at h
  | succ fuel ih =>
    intro data out0 out data' hcap h h0
    unfold parseLoop at h
    obtain ⟨⟨m, rest, e⟩, hp, h⟩ := Out.bind_ret h
    have key : ∀ r, rest = some r → ∀ x ∈ out0 ++ [(m, e)], FromParse t x := by
      rintro r rfl x hx
      rcases List.mem_append.mp hx with hx | hx
      · exact h0 x hx
      · rw [List.mem_singleton] at hx; subst hx; exact ⟨data, eof, r, hcap, hp⟩
    cases rest with
    | none =>
      simp only [Out.pure_eq, Out.ret.injEq, Prod.mk.injEq] at h
      rw [← h.2]; exact h0
    | some r =>
      simp only at h
      have hc : r.cap ≤ readBuffer := by
        obtain ⟨h1, ⟨pre, _, h2⟩, _⟩ := parse_rest (by simp only [readBuffer] at hcap; omega) hp
        simp only [Slice.cap, h1, h2, List.length_append] at hcap ⊢; omega
      split at h
      · simp only [Out.pure_eq, Out.ret.injEq, Prod.mk.injEq] at h
        rw [← h.2]; exact key r rfl
      · exact ih hc h (key r rfl)

theorem step_from {t : Transport} {s s' : State} {r : Read} {b : Bool} (h : Mem s) (hf : r.Fits s)
    (hs : step t s r = .ret (b, s')) (h0 : ∀ d ∈ s.out, FromParse t (d.msg, d.err)) : ∀ d ∈ s'.out, FromParse t (d.msg, d.err) := by
  have hsz := h.size
  have hft := h.fit
  simp only [Read.Fits, State.room] at hf
  unfold step at hs
  simp only at hs
  split at hs
  · simp only [Out.ret.injEq, Prod.mk.injEq] at hs
    rw [← hs.2]; exact h0
  split at hs
  · simp only [Out.ret.injEq, Prod.mk.injEq] at hs
    rw [← hs.2]; exact h0
  have hal := overwrite_length (a := s.arr) (i := s.off + s.done) (bs := r.data ++ r.scratch) (by simp only [List.length_append]; omega)
  generalize overwrite s.arr (s.off + s.done) (r.data ++ r.scratch) = arr at hs hal
  obtain ⟨data, h1, hs⟩ := Out.bind_ret hs
  obtain ⟨⟨data', ds⟩, h2, hs⟩ := Out.bind_ret hs
  have hsub := Slice.sub_nat (s := Slice.exact (arr.drop s.off)) (i := 0) (j := r.data.length + s.done) (by omega)
    (by simp [Slice.exact]; omega)
  have hcap : data.cap ≤ readBuffer := by
    rw [show ((0 : Nat) : Int) = 0 from rfl] at hsub
    rw [hsub] at h1
    simp only [Out.ret.injEq] at h1
    rw [← h1]
    simp only [Slice.cap, Slice.exact, List.length_append, List.length_drop, List.length_take, List.length_nil]
    omega
  simp only [Out.pure_eq, Out.ret.injEq, Prod.mk.injEq] at hs
  obtain ⟨_, rfl⟩ := hs
  have hout : ∀ s l d out, (advance s l d out).out = out := by
    intro s l d out; unfold advance; simp only; split <;> rfl
  rw [hout]
  intro d hd
  rcases List.mem_append.mp hd with hd | hd
  · exact h0 d hd
  · rw [List.mem_map] at hd
    obtain ⟨x, hx, rfl⟩ := hd
    exact parseLoop_from _ hcap h2 (by simp) x hx

theorem run_from {t : Transport} {s : State} {rs : List Read} {o : Out (Bool × State)} (h : Run t s rs o) :
    Mem s → (∀ d ∈ s.out, FromParse t (d.msg, d.err)) → ∀ b s', o = .ret (b, s') → ∀ d ∈ s'.out, FromParse t (d.msg, d.err) := by
  induction h with
  | nil => intro hm h0 b s' e; simp at e; rw [← e.2]; exact h0
  | cons hf hs _ ih =>
    intro hm h0 b s' e
    exact ih (step_mem hm hf hs).1 (step_from hm hf hs h0) b s' e
  | last hf hs _ =>
    intro hm h0 b s' e
    rw [e] at hs
    exact step_from hm hf hs h0

end Tok

/-- Whatever `Receive` returned was returned by `Parse`, on bytes of a read buffer. -/
theorem got_from {t : Transport} {lenQueue : Nat} {es : List Recv.Event} {q : Recv.State} (h : Recv.run t lenQueue Recv.init es = some q)
    (hcr : q.crashed = false) (x : Nat × Tok.Delivered) (hx : x ∈ q.got) : Tok.FromParse t (x.2.msg, x.2.err) := by
  have hlt := C44_nothing_else t lenQueue es q h hcr x hx
  obtain ⟨c, hc⟩ : ∃ c, q.conns[x.1]? = some c := ⟨_, List.getElem?_eq_getElem hlt⟩
  obtain ⟨b, tok, hrun, e⟩ := C44_order t lenQueue es q h hcr x.1 c hc
  refine Tok.run_from hrun Tok.mem_init (by intro d hd; simp [Tok.init] at hd) b tok rfl x.2 ?_
  rw [← e]
  simp only [List.mem_append]
  left; left
  unfold ofConn
  rw [List.mem_filterMap]
  exact ⟨x, hx, by simp⟩

/-- Every message that `Receive` returned without an error, whatever was sent to the receiver: it can be made writable (with no
registered identifiers), and, if it is forwardable, it can be transmitted with the RFC 5425 transport. -/
theorem got_forwardable {t : Transport} {lenQueue : Nat} {es : List Recv.Event} {q : Recv.State} (h : Recv.run t lenQueue Recv.init es = some q)
    (hcr : q.crashed = false) (x : Nat × Tok.Delivered) (hx : x ∈ q.got) (he : x.2.err = none) :
    ∃ w, x.2.msg.writable [] = .ret w ∧ (Forwardable w → Transmissible w) := by
  obtain ⟨data, eof, r, hcap, hp⟩ := got_from h hcr x hx
  simp only at hp
  have hcap63 : data.cap < 2 ^ 63 := by simp only [Tok.readBuffer] at hcap; omega
  rw [he] at hp
  have hne := parse_ok_nonzero hcap63 hp
  obtain ⟨w, hw, hf⟩ := C107_forwarded_partial (some data) (some t) eof _ _ _ hcap63 hp hne
  refine ⟨w, hw, fun g => ⟨(hf g).1, fun b hb => ?_⟩⟩
  have h1 := C107_size (some data) (some t) eof _ _ _ hcap63 hp hne w hw b hb
  obtain ⟨h2, ⟨pre, _, h3⟩, h4⟩ := Tok.parse_rest hcap63 hp
  have h5 : x.2.msg.string.length ≤ Tok.readBuffer := by
    rcases h4 with h4 | ⟨a, b, h4, _⟩
    · exact absurd h4 hne
    · have := congrArg List.length h4
      simp only [List.length_append] at this
      simp only [Slice.cap] at hcap
      unfold MsgImm.string
      omega
  simp only [Tok.readBuffer] at h5
  omega

/-- **C107**, the programs. Whatever bytes came, on whatever connections and in whatever segments, to a receiver (with any transport): a
program forwards the messages that `Receive` returned without an error, in order, with the RFC 5425 transport. If these messages are forwardable,
what the second receiver has returned are these messages, as they were made writable, from the first one on, in order, each
exactly once, with all their fields and no error. Missing: the other messages, see `C107_priority_violated`, `C107_offset_violated`, `C107_text_violated`,
`C107_line_violated`; and other transports behind the program, see `C72_crash_violated`. -/
theorem C107_relay_partial (t : Transport)
    (lenQueue1 : Nat) (er1 : List Recv.Event) (q1 : Recv.State) (hq1 : Recv.run t lenQueue1 Recv.init er1 = some q1) (hcr1 : q1.crashed = false)
    (es : List Sender.Event) (s : Sender.State) (hs : History .rfc5425 es s) (hfwd : ForwardsGood q1.got (sent es))
    (hgood : ∀ w ∈ sent es, Forwardable w)
    (c : Sender.Conn) (cs : List Sender.Conn) (hc : s.conns = c :: cs)
    (lenQueue2 : Nat) (er2 : List Recv.Event) (q2 : Recv.State) (hq2 : Recv.run .rfc5425 lenQueue2 Recv.init er2 = some q2) (hcr2 : q2.crashed = false)
    (i : Nat) (k : Recv.Conn) (hi : q2.conns[i]? = some k) (hwire : arrived (readsOf i er2) <+: c.writes.flatten) :
    Each IsReceived ((sent es).take (ofConn i q2.got).length) (ofConn i q2.got) ∧
    (k.pending = [] → ofConn i q2.pipeline = [] → arrived (readsOf i er2) = (frames .rfc5425 es).flatten →
      Each IsReceived (sent es) (ofConn i q2.got)) := by
  have htr : ∀ m ∈ sent es, Transmissible m := by
    intro m hm
    obtain ⟨x, hx, e⟩ := each_mem hfwd m hm
    have hx' := List.mem_of_mem_take hx
    rw [List.mem_filter] at hx'
    obtain ⟨w, hw, hf⟩ := got_forwardable hq1 hcr1 x hx'.1 (by simpa using hx'.2)
    rw [hw] at e
    simp only [Out.ret.injEq] at e
    subst e
    exact hf (hgood _ hm)
  obtain ⟨h1, h2⟩ := conn_received carries_5425 es s hs htr [] cs c hc 0 rfl lenQueue2 er2 q2 hq2 hcr2 i k hi hwire
  rw [List.drop_zero] at h1 h2
  refine ⟨h1, fun g1 g2 g3 => ?_⟩
  have := (h2 g1 g2).2 (sent es).length (Nat.le_refl _) (by rw [g3, List.take_length, frames_sent es (fun m hm => carries_5425.ok m (htr m hm))]; exact List.prefix_refl _)
  rw [List.take_of_length_le this] at h1
  exact h1

/-! ### an execution that meets the hypotheses

A frame with something that is not a message, and one with a message without a time, with two spaces between its parameters, one of which has no name.
The program forwards the second one. -/

theorem writable_respare {m : MsgImm} {fs xs : List Bytes} {o : Option Bytes} (h : View m fs xs o) (z : Bytes) :
    MsgImm.writable [] { m with buffer := ⟨m.buffer.vis, z⟩ } = m.writable [] := by
  have h' := h.respare z
  obtain ⟨pri, ts, host, app, pid, mid, e, hr⟩ := h.readsAs
  obtain ⟨pri', ts', host', app', pid', mid', e', hr'⟩ := h'.readsAs
  rw [e] at e'
  simp only [List.cons.injEq, and_true] at e'
  obtain ⟨rfl, rfl, rfl, rfl, rfl, rfl⟩ := e'
  obtain ⟨q1, q2, q3, q4, q5, q6, q7⟩ := readsAs_same hr' hr
  have q8 : MsgImm.structuredData [] { m with buffer := ⟨m.buffer.vis, z⟩ } = m.structuredData [] := by
    rw [h'.structuredData, h.structuredData]
    split
    · rfl
    · generalize o.getD [] ++ z = f
      generalize o.getD [] ++ m.buffer.spare = f'
      clear * -
      induction xs with
      | nil => rfl
      | cons x r ih =>
        unfold decodeAll
        rw [ih]
        congr 1
        exact unknown_local x _ _
  unfold MsgImm.writable
  rw [q1, q2, q3, q4, q5, q6, q7, q8]

/-- What came. -/
def demoForeign : Bytes := b!"<13>1 - h a - - [x =\"1\"  y=\"\\\"2\"][x@32473 zz=\"\"] hi\\]x"

/-- What is forwarded. -/
def demoForwarded : Message :=
  ⟨(13 : Int), Time.zero, b!"h", b!"a", b!"-", b!"-", [.unknown b!"x" [(b!"", b!"1"), (b!"y", b!"\\\"2")], .unknown b!"x@32473" [(b!"zz", b!"")]], b!"hi\\]x"⟩

/-- Its bytes. -/
def demoForwardedText : Bytes := b!"<13>1 0001-01-01T00:00:00Z h a - - [x =\"1\" y=\"\\\"2\"][x@32473 zz=\"\"] hi\\]x"

/-- The first receiver. -/
def demoForeignReceived : List Recv.Event :=
  [.tau, .acceptOk, .read 0 { data := Transport.rfc5425.encode b!"this is not a message" ++ b!"54 <13>1 - h a" }, .handoff 0,
   .read 0 { data := demoForeign.drop 11 }, .handoff 0]

/-- The second sender. -/
def demoForwardSent : List Sender.Event :=
  [.send demoForwarded, .endCall, .seeEnd, .tau, .tau, .connect none, .tau, .tau, .write 75 none, .tau, .tau, .tau, .tau, .tau, .tau]

/-- The second receiver. -/
def demoForwardReceived : List Recv.Event :=
  [.tau, .acceptOk, .read 0 { data := (Transport.rfc5425.encode demoForwardedText).take 30 },
   .read 0 { data := (Transport.rfc5425.encode demoForwardedText).drop 30 }, .handoff 0]

theorem demoForwarded_good : Forwardable demoForwarded := by
  refine ⟨by decide, by decide, fun _ => by decide⟩

example : ∃ q1 s c q2 k, Recv.run .rfc5425 0 Recv.init demoForeignReceived = some q1 ∧ q1.crashed = false ∧
    q1.got.length = 2 ∧ History .rfc5425 demoForwardSent s ∧ ForwardsGood q1.got (sent demoForwardSent) ∧ (∀ w ∈ sent demoForwardSent, Forwardable w) ∧
    s.conns = [c] ∧ Recv.run .rfc5425 0 Recv.init demoForwardReceived = some q2 ∧ q2.crashed = false ∧ q2.conns[0]? = some k ∧
    k.pending = [] ∧ ofConn 0 q2.pipeline = [] ∧ arrived (readsOf 0 demoForwardReceived) = c.writes.flatten ∧
    arrived (readsOf 0 demoForwardReceived) = (frames .rfc5425 demoForwardSent).flatten ∧ (ofConn 0 q2.got).length = 1 := by
  have h1 : (match Recv.run .rfc5425 0 Recv.init demoForeignReceived with
      | some q => !q.crashed && (match q.got with
        | [x, y] => x.2.err.isSome && y.2.err.isNone && decide (y.2.msg.buffer.vis = demoForeign) && decide (y.2.msg.index = [5, 7, 9, 11, 13, 15, 33, 48]) &&
          decide (y.2.msg.text = 49)
        | _ => false)
      | none => false) = true := by decide +kernel
  have h2 : (match Recv.run .rfc5425 0 Recv.init demoForwardReceived with
      | some q => !q.crashed && q.pipeline.isEmpty && decide ((ofConn 0 q.got).length = 1) &&
        (match q.conns[0]? with | some k => k.pending.isEmpty | none => false)
      | none => false) = true := by decide +kernel
  have hw : (MsgImm.mk (.exact demoForeign) [5, 7, 9, 11, 13, 15, 33, 48] 49).writable [] = .ret demoForwarded := by rfl
  have hp : parse (some (.exact demoForeign)) none true = .ret (⟨.exact demoForeign, [5, 7, 9, 11, 13, 15, 33, 48], 49⟩, none, none) := by decide +kernel
  obtain ⟨fs, xs, o, hv⟩ := parse_view (by decide +kernel) hp (by decide +kernel)
  split at h1
  · next q1 hq1 =>
    simp only [Bool.and_eq_true, Bool.not_eq_true'] at h1
    obtain ⟨g1, g2⟩ := h1
    split at g2
    · next x y hxy =>
      simp only [Bool.and_eq_true, decide_eq_true_eq, Option.isNone_iff_eq_none] at g2
      obtain ⟨⟨⟨⟨g2, g3⟩, g4⟩, g5⟩, g6⟩ := g2
      split at h2
      · next q2 hq2 =>
        simp only [Bool.and_eq_true, Bool.not_eq_true', decide_eq_true_eq, List.isEmpty_iff] at h2
        obtain ⟨⟨⟨k1, k2⟩, k3⟩, k4⟩ := h2
        split at k4
        · next k hk =>
          refine ⟨q1, ⟨[], [⟨[Transport.rfc5425.encode demoForwardedText], true⟩], true, false, [], true, true, false, false, .closeErr⟩,
            ⟨[Transport.rfc5425.encode demoForwardedText], true⟩, q2, k, hq1, g1, by rw [hxy]; rfl, ?_, ?_, ?_, rfl, hq2, k1, hk, by simpa using k4,
            by rw [k2]; rfl, ?_, ?_, k3⟩
          · decide +kernel
          · have e : y.2.msg.writable [] = .ret demoForwarded := by
              rw [← hw]
              have := writable_respare hv y.2.msg.buffer.spare
              rw [← this]
              congr 1
              generalize y.2.msg = m at g4 g5 g6
              obtain ⟨⟨b, sp⟩, i, tx⟩ := m
              simp only at g4 g5 g6
              subst g4 g5 g6
              rfl
            unfold ForwardsGood Forwards
            rw [hxy]
            have hx : ¬ x.2.err = none := by
              intro h; rw [h] at g2; simp at g2
            simp only [List.filter_cons, hx, g3, List.filter_nil, decide_false, decide_true, if_true, Bool.false_eq_true, if_false]
            exact .cons e .nil
          · intro w hw
            rw [show sent demoForwardSent = [demoForwarded] from rfl, List.mem_singleton] at hw
            subst hw; exact demoForwarded_good
          · decide +kernel
          · decide +kernel
        · simp at k4
      · simp at h2
    · simp at g2
  · simp at h1

/-- C107 is violated: a priority above 299 is read, but written as 0. -/
theorem C107_priority_violated : ∃ p w b p2, parse (some (.exact b!"<300>1 - - - - - - x")) none true = .ret (p, none, none) ∧
    p.writable [] = .ret w ∧ w.prio = (300 : Int) ∧ w.marshal = .ret (.ok b) ∧ parse (some (.exact b)) none true = .ret (p2, none, none) ∧
    p2.priority = .ret (0 : Int) := by
  refine ⟨⟨.exact b!"<300>1 - - - - - - x", [6, 8, 10, 12, 14, 16, 18], 19⟩, ⟨(300 : Int), Time.zero, b!"-", b!"-", b!"-", b!"-", [], b!"x"⟩,
    b!"<0>1 0001-01-01T00:00:00Z - - - - - x",
    ⟨.exact b!"<0>1 0001-01-01T00:00:00Z - - - - - x", [4, 25, 27, 29, 31, 33, 35], 36⟩, ?_, by rfl, rfl, ?_, ?_, ?_⟩ <;> decide +kernel

/-- C107 is violated: an offset of 24 hours and 60 minutes is read, but written as 25 hours, which is not read: the time of
the message is lost with the next one who receives it. -/
theorem C107_offset_violated : ∃ p w b p2, parse (some (.exact b!"<1>1 2020-01-01T00:00:00+24:60 - - - - - x")) none true = .ret (p, none, none) ∧
    p.writable [] = .ret w ∧ w.timestamp = ⟨2020, 1, 1, 0, 0, 0, 0, 90000⟩ ∧ w.marshal = .ret (.ok b) ∧ b = b!"<1>1 2020-01-01T00:00:00+25:00 - - - - - x" ∧
    parse (some (.exact b)) none true = .ret (p2, none, none) ∧ p2.timeStamp = .ret ⟨1, 1, 1, 0, 0, 0, 0, 0⟩ := by
  refine ⟨⟨.exact b!"<1>1 2020-01-01T00:00:00+24:60 - - - - - x", [4, 30, 32, 34, 36, 38, 40], 41⟩,
    ⟨(1 : Int), ⟨2020, 1, 1, 0, 0, 0, 0, 90000⟩, b!"-", b!"-", b!"-", b!"-", [], b!"x"⟩, b!"<1>1 2020-01-01T00:00:00+25:00 - - - - - x",
    ⟨.exact b!"<1>1 2020-01-01T00:00:00+25:00 - - - - - x", [4, 30, 32, 34, 36, 38, 40], 41⟩, ?_, by rfl, rfl, ?_, rfl, ?_, ?_⟩ <;> decide +kernel

/-- C107 is violated: the byte between the structured data and the text is lost and written as a space; if it was the backslash
that a `]` needs, what is written is not a message any more. -/
theorem C107_text_violated : ∃ p w b e, parse (some (.exact b!"<1>1 - - - - - [a b=\"c\"]\\]foo")) none true = .ret (p, none, none) ∧
    p.writable [] = .ret w ∧ w.message = b!"]foo" ∧ w.marshal = .ret (.ok b) ∧ b = b!"<1>1 0001-01-01T00:00:00Z - - - - [a b=\"c\"] ]foo" ∧
    parse (some (.exact b)) none true = .ret (MsgImm.zero, none, some e) := by
  refine ⟨⟨.exact b!"<1>1 - - - - - [a b=\"c\"]\\]foo", [4, 6, 8, 10, 12, 14, 24], 25⟩,
    ⟨(1 : Int), Time.zero, b!"-", b!"-", b!"-", b!"-", [.unknown b!"a" [(b!"b", b!"c")]], b!"]foo"⟩, b!"<1>1 0001-01-01T00:00:00Z - - - - [a b=\"c\"] ]foo",
    .parseError 43 "\\\\ or \" expected", ?_, by rfl, rfl, ?_, rfl, ?_⟩ <;> decide +kernel

/-- C107 is violated: a text that was cut at the end of its line, behind `\]`, is written as something that is not a message. -/
theorem C107_line_violated : ∃ p w b e r, parse (some (.exact b!"<1>1 - - - - - [a b=\"c\"] foo\\]\nbar")) (some .lfEnded) false = .ret (p, r, none) ∧
    p.writable [] = .ret w ∧ w.message = b!"foo\\]" ∧ w.marshal = .ret (.ok b) ∧ b = b!"<1>1 0001-01-01T00:00:00Z - - - - [a b=\"c\"] foo\\]" ∧
    parse (some (.exact b)) none true = .ret (MsgImm.zero, none, some e) := by
  refine ⟨⟨⟨b!"<1>1 - - - - - [a b=\"c\"] foo\\]", b!"\nbar"⟩, [4, 6, 8, 10, 12, 14, 24], 25⟩,
    ⟨(1 : Int), Time.zero, b!"-", b!"-", b!"-", b!"-", [.unknown b!"a" [(b!"b", b!"c")]], b!"foo\\]"⟩, b!"<1>1 0001-01-01T00:00:00Z - - - - [a b=\"c\"] foo\\]",
    .impossible, some (.exact b!"bar"), ?_, by rfl, rfl, ?_, rfl, ?_⟩ <;> decide +kernel

end Syslog5424
