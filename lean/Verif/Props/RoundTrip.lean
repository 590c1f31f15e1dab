import Verif.Lemmas.RoundTrip
import Verif.Spec.Rfc5424
/-! # Properties C08, C11, C12, C14, C19, C52: marshalled messages -/
namespace Syslog5424
open Spec Transport

/-! ## C52 -/

/-- C52: parsing what was formatted gives the time truncated to the microsecond. -/
theorem C52_format_parse (t : Time) (h : t.Valid) : Time.parse t.format = some t.microseconds := Time.parse_format h

/-- C52: `TimeStamp` of a parsed message (with any transport) whose second field was written from `t` is `t`
truncated to the microsecond. -/
theorem C52_timestamp_of_frame (data : Option Slice) (tr : Option Transport) (atEOF : Bool) (p : MsgImm)
    (rest : Option Slice) (e : Option Err) (hcap : (Slice.ofNil data).cap < 2 ^ 63)
    (h : parse data tr atEOF = .ret (p, rest, e)) (hm : p ≠ MsgImm.zero)
    (t : Time) (ht : t.Valid) (pri tail : Bytes) (hpri : (32 : UInt8) ∉ pri)
    (hs : p.string = pri ++ b!" " ++ t.format ++ b!" " ++ tail) : p.timeStamp = .ret t.microseconds := by
  obtain ⟨fs, xs, o, hv⟩ := parse_view hcap h hm
  obtain ⟨a, b, c, d, e, f, rfl, _, hf0, _⟩ := hv.fields
  obtain ⟨more, tl, _, hb⟩ := hv.index_take
  have hr := hv.raw
  have hs' : p.buffer.vis = pri ++ b!" " ++ t.format ++ b!" " ++ tail := hs
  rw [hb] at hs'
  simp only [headerText, List.flatMap_cons, List.append_assoc, List.cons_append, List.nil_append] at hs'
  obtain ⟨e1, e2⟩ := firstByte hs' (hr a (by simp)).2 hpri
  obtain ⟨e3, e4⟩ := firstByte e2 (hr b (by simp)).2 (format_raw t).2
  unfold MsgImm.timeStamp
  rw [hf0, e3]
  simp only [Out.ret_bind, Out.pure_eq]
  rw [Time.parse_format ht]
  rfl

/-- C52: the same from message to message. -/
theorem C52_round_trip (m : Message) (hp : 0 ≤ (m.prio : Int) ∧ (m.prio : Int) ≤ 299) (ht : m.timestamp.Valid) (b spare : Bytes)
    (hb : m.marshal = .ret (.ok b)) (atEOF : Bool) (p : MsgImm) (rest : Option Slice) (hcap : b.length + spare.length < 2 ^ 63)
    (h : parse (some ⟨b, spare⟩) none atEOF = .ret (p, rest, none)) : p.timeStamp = .ret m.timestamp.microseconds := by
  rcases parse_nil_cases (some ⟨b, spare⟩) atEOF with ⟨e', h'⟩ | ⟨fs', xs', o', idx, txt, h1, h2⟩
  · rw [h'] at h; simp at h
  · have hp2 := h
    rw [h2] at h
    simp only [Out.ret.injEq, Prod.mk.injEq, and_true] at h
    obtain ⟨rfl, -⟩ := h
    obtain ⟨sd, _, hsd, _⟩ := C25_message_ok m b hb
    have hbe := marshal_eq m sd hsd
    rw [hb] at hbe
    simp only [Out.ret.injEq, Except.ok.injEq] at hbe
    refine C52_timestamp_of_frame (some ⟨b, spare⟩) none atEOF _ _ _ hcap hp2 h1.view.ne_zero _ ht
      (Priority.marshal m.prio) (m.hostname ++ b!" " ++ m.appname ++ b!" " ++ m.procid ++
        b!" " ++ m.msgid ++ b!" " ++ sd ++ (if m.message = [] then [] else SP :: m.message)) (marshal_raw hp.1 hp.2).2 ?_
    show b = _
    rw [hbe]
    simp [headerText, wireFields]

example : (⟨2003, 10, 11, 22, 14, 15, 3000789, -25200⟩ : Time).Valid := by
  constructor <;> decide
example : Time.parse (Time.format ⟨2003, 10, 11, 22, 14, 15, 3000789, -25200⟩) =
    some ⟨2003, 10, 11, 22, 14, 15, 3000000, -25200⟩ := by decide +kernel

/-- C52 stops at the documented range: an offset that is not a whole number of minutes is truncated. -/
theorem C52_seconds_offset : Time.parse (Time.format ⟨1900, 1, 1, 0, 0, 0, 0, 561⟩) = some ⟨1900, 1, 1, 0, 0, 0, 0, 540⟩ := by
  decide +kernel

/-- A year that cannot be written with four digits: its text is neither four digits nor followed by the dash expected
there. -/
theorem parse_other_year (t : Time) (h : t.year < 0 ∨ 9999 < t.year) : Time.parse t.format = none := by
  unfold Time.parse Time.format
  rcases h with h | h
  · have : ∀ r : Bytes, Time.getyear (DASH :: r) = none := by
      intro r
      unfold Time.getyear
      split
      · rfl
      · rw [if_neg]
        simp [isDigit, DASH]
    unfold Time.padInt
    rw [if_pos h]
    simp only [List.cons_append, this]
    rfl
  · have h1 : ∃ n : Nat, t.year.toNat = n ∧ 10000 ≤ n := ⟨_, rfl, by omega⟩
    obtain ⟨n, hn, hn4⟩ := h1
    have hd : ∃ a b c d e, ∃ r : Bytes, natDec n = a :: b :: c :: d :: e :: r := by
      have hl : 5 ≤ (natDec n).length := by
        rw [natDec_ge (n := n) (by omega), natDec_ge (n := n / 10) (by omega), natDec_ge (n := n / 10 / 10) (by omega),
          natDec_ge (n := n / 10 / 10 / 10) (by omega)]
        have := natDec_length_pos (n / 10 / 10 / 10 / 10)
        simp only [List.length_append, List.length_cons, List.length_nil]
        omega
      match hx : natDec n, hl with
      | a :: b :: c :: d :: e :: r, _ => exact ⟨a, b, c, d, e, r, rfl⟩
    obtain ⟨a, b, c, d, e, r, hd⟩ := hd
    have he : e ≠ 45 := by
      rintro rfl
      have := natDec_isDigit n 45 (by rw [hd]; simp)
      exact absurd this (by decide)
    have hp : Time.padInt 4 t.year = a :: b :: c :: d :: e :: r := by
      unfold Time.padInt Time.padNat
      rw [if_neg (by omega), hn, hd]
      simp
    rw [hp]
    simp only [List.cons_append, List.append_assoc]
    generalize r ++ _ = q
    have hy : Time.getyear (a :: b :: c :: d :: e :: q) = none ∨ ∃ y, Time.getyear (a :: b :: c :: d :: e :: q) = some (y, e :: q) := by
      unfold Time.getyear
      rw [if_neg (by simp)]
      split
      · exact Or.inr ⟨_, rfl⟩
      · exact Or.inl rfl
    rcases hy with hy | ⟨y, hy⟩
    · rw [hy]; rfl
    · rw [hy]
      simp [Time.skipByte, he]

/-- C52 stops at the documented range: the time of a message written with a year before 0 or after 9999 is lost, what is
read back is the zero time (January 1 of the year 1), without an error. -/
theorem C52_other_years (data : Option Slice) (tr : Option Transport) (atEOF : Bool) (p : MsgImm)
    (rest : Option Slice) (e : Option Err) (hcap : (Slice.ofNil data).cap < 2 ^ 63)
    (h : parse data tr atEOF = .ret (p, rest, e)) (hm : p ≠ MsgImm.zero)
    (t : Time) (ht : t.year < 0 ∨ 9999 < t.year) (pri tail : Bytes) (hpri : (32 : UInt8) ∉ pri)
    (hs : p.string = pri ++ b!" " ++ t.format ++ b!" " ++ tail) : p.timeStamp = .ret ⟨1, 1, 1, 0, 0, 0, 0, 0⟩ := by
  obtain ⟨fs, xs, o, hv⟩ := parse_view hcap h hm
  obtain ⟨a, b, c, d, e, f, rfl, _, hf0, _⟩ := hv.fields
  obtain ⟨more, tl, _, hb⟩ := hv.index_take
  have hr := hv.raw
  have hs' : p.buffer.vis = pri ++ b!" " ++ t.format ++ b!" " ++ tail := hs
  rw [hb] at hs'
  simp only [headerText, List.flatMap_cons, List.append_assoc, List.cons_append, List.nil_append] at hs'
  obtain ⟨e1, e2⟩ := firstByte hs' (hr a (by simp)).2 hpri
  obtain ⟨e3, e4⟩ := firstByte e2 (hr b (by simp)).2 (format_raw t).2
  unfold MsgImm.timeStamp
  rw [hf0, e3]
  simp only [Out.ret_bind, Out.pure_eq]
  rw [parse_other_year t ht]
  rfl

example : Time.format ⟨-44, 3, 15, 0, 0, 0, 0, 0⟩ = b!"-0044-03-15T00:00:00Z" ∧
    Time.format ⟨12024, 3, 15, 0, 0, 0, 0, 0⟩ = b!"12024-03-15T00:00:00Z" ∧
    ∃ p, parse (some (.exact b!"<1>1 -0044-03-15T00:00:00Z - - - - -")) none true = .ret (p, none, none) ∧
      p.timeStamp = .ret ⟨1, 1, 1, 0, 0, 0, 0, 0⟩ := by
  refine ⟨by decide +kernel, by decide +kernel, _, rfl, by decide +kernel⟩

/-! ## C11, C12 -/

/-- What was read back of a message. -/
structure ReadBack (p : MsgImm) (m : Message) : Prop where
  priority : p.priority = .ret m.prio
  hostname : p.hostname = .ret m.hostname
  appName : p.appName = .ret m.appname
  procID : p.procID = .ret m.procid
  msgID : p.msgID = .ret m.msgid
  text : p.textOf = .ret m.message

theorem readBack {m : Message} (h : GoodMsg m) {p : MsgImm} {xs : List Bytes}
    (hv : View p (wireFields m) xs (if m.message = [] then none else some (SP :: m.message))) : ReadBack p m := by
  obtain ⟨a, b, c, d, e, f, hfs, hp, h0, h1, h2, h3, h4, _⟩ := hv.fields
  simp only [wireFields, List.cons.injEq, and_true] at hfs
  obtain ⟨rfl, rfl, rfl, rfl, rfl, rfl⟩ := hfs
  refine ⟨?_, ?_, ?_, ?_, ?_, ?_⟩
  · rw [hp, (C01_round_trip m.prio 0).mpr h.prio]
  · unfold MsgImm.hostname; rw [h1]; simp only [Out.ret_bind, Out.pure_eq, validHost]; rw [validator_id h.host]
  · unfold MsgImm.appName; rw [h2]; simp only [Out.ret_bind, Out.pure_eq, validApp]; rw [validator_id h.app]
  · unfold MsgImm.procID; rw [h3]; simp only [Out.ret_bind, Out.pure_eq, validProcid]; rw [validator_id h.pid]
  · unfold MsgImm.msgID; rw [h4]; simp only [Out.ret_bind, Out.pure_eq, validMsgid]; rw [validator_id h.mid]
  · rw [hv.textOf]
    split
    · next h => rw [h]; rfl
    · rfl

/-- C11 (partial): for every message whose header fields are valid and whose structured data elements each have
at least one parameter, if in the text, next to structured data, no `]` occurs but after a backslash and before something else, `Parse` of the
marshalled bytes succeeds and gives every part back, the structured data as elements with the same identifiers,
parameters and bytes. Whatever the spare capacity of the buffer and the end-of-file flag. Missing: elements
without parameters (`C11_no_params_violated`) and other texts (`C12_text_violated`). -/
theorem C11_round_trip_partial (m : Message) (h : GoodMsg m) (xs : List (Bytes × List (Bytes × Bytes)))
    (hsd : MarshalsTo m.sd xs) (ht : m.sd ≠ [] → FreeText m.message) (spare : Bytes) (atEOF : Bool) :
    ∃ b p, m.marshal = .ret (.ok b) ∧ parse (some ⟨b, spare⟩) none atEOF = .ret (p, none, none) ∧
      p.string = b ∧ ReadBack p m ∧ p.structuredData [] = .ret (xs.map fun x => .unknown x.1 x.2) ∧
      (xs.map fun x => SD.marshal (.unknown x.1 x.2)) = m.sd.map SD.marshal := by
  obtain ⟨b, idx, txt, hb, hL⟩ := layout_msg h hsd (fun h1 _ => quiet_text (ht h1))
  have hv := Layout.view (data := ⟨b, spare⟩) hL
  refine ⟨b, _, hb, parse_layout ⟨b, spare⟩ atEOF hL, rfl, readBack h hv, ?_, ?_⟩
  · rw [hv.structuredData]
    by_cases hx : xs = []
    · subst hx; rfl
    · rw [if_neg (not_dash xs hx), decodeAll_wellFormed _ xs hsd.2]
  · rw [hsd.1]
    apply List.map_congr_left
    intro x _
    show (Out.ret (Except.ok (unknownMarshal x.1 x.2)) : Res Bytes) = _
    rw [unknownMarshal_eq]

/-- C11 is violated: an element without parameters, which the API can produce, makes the marshalled message
unreadable. -/
theorem C11_no_params_violated :
    ∃ m b e, GoodMsg m ∧ m.sd = [.tq ⟨false, false, none⟩] ∧ m.marshal = .ret (.ok b) ∧
      b = b!"<0>1 1970-01-01T00:00:00Z - - - - [timeQuality]" ∧ parse (some (.exact b)) none true = .ret (MsgImm.zero, none, some e) := by
  refine ⟨Message.empty.addSD [.tq ⟨false, false, none⟩], b!"<0>1 1970-01-01T00:00:00Z - - - - [timeQuality]", .posNotFound,
    ⟨?_, ?_, ?_, ?_, ?_⟩, rfl, ?_, rfl, ?_⟩ <;> decide +kernel

/-- C12 (partial, exact): a text next to structured data is read back if and only if every `]` in it comes right
after a backslash and is not the last byte. Missing: every other text, see `C12_text_violated`. -/
theorem C12_text_survives_iff_partial (m : Message) (h : GoodMsg m) (xs : List (Bytes × List (Bytes × Bytes)))
    (hsd : MarshalsTo m.sd xs) (hne : m.sd ≠ []) (hm : m.message ≠ []) (spare : Bytes) (atEOF : Bool) :
    ∃ b, m.marshal = .ret (.ok b) ∧
      ((∃ p, parse (some ⟨b, spare⟩) none atEOF = .ret (p, none, none) ∧ p.textOf = .ret m.message) ↔
        Quiet (b!" " ++ m.message)) := by
  have hxne := hsd.ne hne
  refine ⟨_, marshal_eq m _ (hsd.list hne), ?_⟩
  rw [if_neg hm]
  constructor
  · rintro ⟨p, hp, htx⟩
    rcases parse_nil_cases (some ⟨headerText (wireFields m) ++ (xs.map fun x => elementText x.1 x.2).flatten ++ SP :: m.message, spare⟩) atEOF
      with ⟨e', h'⟩ | ⟨fs, ys, o, idx, txt, h1, h2⟩
    · rw [h'] at hp; simp at hp
    rw [h2] at hp
    simp only [Out.ret.injEq, Prod.mk.injEq, and_true] at hp
    subst hp
    rw [h1.view.textOf] at htx
    simp only [Out.ret.injEq] at htx
    simp only [Slice.ofNil_some] at h1
    have hlist : ∃ tail, headerText fs ++ tail = headerText (wireFields m) ++ ((xs.map fun x => elementText x.1 x.2).flatten ++ SP :: m.message) ∧
        ((tail = [DASH] ∨ ∃ t, tail = [DASH, SP] ++ t) ∨ Items tail ys o) ∧ fs.length = 6 ∧ ∀ f ∈ fs, RawField f := by
      generalize hbb : headerText (wireFields m) ++ (xs.map fun x => elementText x.1 x.2).flatten ++ SP :: m.message = bb at h1
      rw [List.append_assoc] at hbb
      rw [hbb]
      cases h1 with
      | dash a b => exact ⟨_, rfl, Or.inl (Or.inl rfl), a, b⟩
      | dashText a b => exact ⟨_, (List.append_assoc _ _ _).symm, Or.inl (Or.inr ⟨_, rfl⟩), a, b⟩
      | sd a b c => exact ⟨_, rfl, Or.inr c, a, b⟩
    obtain ⟨tail, hte, hcase, h6, hraw⟩ := hlist
    obtain ⟨-, rfl⟩ := header_inj (by rw [h6]; rfl) hraw h.raw hte
    have hhead : ((xs.map fun x => elementText x.1 x.2).flatten ++ SP :: m.message).head? = some 91 := by
      cases xs with
      | nil => exact absurd rfl hxne
      | cons x r => rfl
    rcases hcase with (hd | ⟨t, hd⟩) | hi
    · rw [hd] at hhead; exact absurd hhead (by decide)
    · rw [hd] at hhead; exact absurd hhead (by simp; decide)
    · obtain ⟨zs, -, hi2⟩ := items_flatten hsd.elements (by simp) hi
      clear hi
      generalize hg : SP :: m.message = g at hi2
      cases hi2 with
      | stop he => exact absurd htx.symm hm
      | quiet hq => rw [← hg] at hq; exact hq
      | @more x r zs _ he hi =>
        exfalso
        obtain ⟨e1, _, _⟩ := hi.spec
        have hl := congrArg List.length hg
        have hl2 := congrArg List.length e1
        have hl3 := congrArg List.length htx
        have hx2 : 2 ≤ x.length := by cases he <;> simp <;> omega
        have hpos : 0 < m.message.length := List.length_pos_iff.mpr hm
        simp only [List.length_append, List.length_cons, List.length_drop] at hl hl2 hl3
        omega
  · intro hq
    obtain ⟨b, idx, txt, hb, hL⟩ := layout_msg h hsd (fun _ _ => hq)
    have e := marshal_eq m _ (hsd.list hne)
    rw [hb, if_neg hm] at e
    simp only [Out.ret.injEq, Except.ok.injEq] at e
    subst e
    have hv := Layout.view (data := ⟨_, spare⟩) hL
    exact ⟨_, parse_layout ⟨_, spare⟩ atEOF hL, (readBack h hv).text⟩

/-- A message used in the examples. -/
def exampleMsg (text : Bytes) : Message :=
  { Message.createWhole 165 ⟨2003, 10, 11, 22, 14, 15, 3000789, -25200⟩ b!"host.example" b!"app" b!"123" b!"ID47" text with
    sd := [.unknown b!"x@1" [(b!"a", b!"1"), (b!"b", b!"\\]")], .tq ⟨true, true, some 17⟩] }

theorem exampleMsg_good (text : Bytes) : GoodMsg (exampleMsg text) := by
  constructor <;> (simp only [exampleMsg, Message.createWhole]; decide +kernel)

theorem exampleMsg_sd (text : Bytes) : MarshalsTo (exampleMsg text).sd
    [(b!"x@1", [(b!"a", b!"1"), (b!"b", b!"\\]")]), (b!"timeQuality", [(b!"tzKnown", b!"1"), (b!"isSynced", b!"1"), (b!"syncAccuracy", b!"17")])] := by
  refine ⟨by simp only [exampleMsg]; decide +kernel, ?_⟩
  intro x hx
  simp only [List.mem_cons, List.not_mem_nil, or_false] at hx
  have r1 : ∀ c : UInt8, c ≠ 34 → c ≠ 92 → c ≠ 93 → RawValue [c] := fun c a b d => .byte a b d .nil
  rcases hx with rfl | rfl
  · refine ⟨wellFormed_of_names (by decide +kernel) ?_, by simp⟩
    intro p hp
    simp only [List.mem_cons, List.not_mem_nil, or_false] at hp
    rcases hp with rfl | rfl
    · exact ⟨by decide +kernel, r1 _ (by decide) (by decide) (by decide)⟩
    · exact ⟨by decide +kernel, .escaped .nil⟩
  · refine ⟨wellFormed_of_names (by decide +kernel) ?_, by simp⟩
    intro p hp
    simp only [List.mem_cons, List.not_mem_nil, or_false] at hp
    rcases hp with rfl | rfl | rfl
    · exact ⟨by decide +kernel, r1 _ (by decide) (by decide) (by decide)⟩
    · exact ⟨by decide +kernel, r1 _ (by decide) (by decide) (by decide)⟩
    · exact ⟨by decide +kernel, .byte (by decide) (by decide) (by decide) (r1 _ (by decide) (by decide) (by decide))⟩

example : FreeText (exampleMsg b!"An \xc3\xa9vent").message := freeText_plain (by decide +kernel)

example : FreeText (exampleMsg b!"An \\] event").message := by
  have : Quiet (exampleMsg b!"An \\] event").message := .esc (p := b!"An ") (r := b!" event") (by decide) (.last (by simp) (by decide))
  exact (quiet_iff.mp this).2

/-- A message with one structured data element and a text. -/
def bracketMsg (text : Bytes) : Message := (Message.empty.addSD [.unknown b!"x" [(b!"a", b!"1")]]).setMsg text

theorem bracketMsg_good (text : Bytes) : GoodMsg (bracketMsg text) := by
  constructor <;> (simp only [bracketMsg, Message.addSD, Message.setMsg, Message.empty]; decide +kernel)

/-- C12 is violated: a `]` in the text next to structured data makes the message unreadable, or makes the
beginning of the text a part of the structured data. -/
theorem C12_text_violated :
    (∃ b e, GoodMsg (bracketMsg b!"array[0] is bad") ∧ (bracketMsg b!"array[0] is bad").message = b!"array[0] is bad" ∧
      (bracketMsg b!"array[0] is bad").marshal = .ret (.ok b) ∧
      parse (some (.exact b)) none true = .ret (MsgImm.zero, none, some e)) ∧
    (∃ b p, GoodMsg (bracketMsg b!"say [\"hi\"] now") ∧ (bracketMsg b!"say [\"hi\"] now").message = b!"say [\"hi\"] now" ∧
      (bracketMsg b!"say [\"hi\"] now").marshal = .ret (.ok b) ∧
      parse (some (.exact b)) none true = .ret (p, none, none) ∧ p.textOf = .ret b!"now") := by
  constructor
  · refine ⟨b!"<0>1 1970-01-01T00:00:00Z - - - - [x a=\"1\"] array[0] is bad", .parseError 50 "\\\\ or \" expected", bracketMsg_good _, ?_⟩
    decide +kernel
  · refine ⟨b!"<0>1 1970-01-01T00:00:00Z - - - - [x a=\"1\"] say [\"hi\"] now",
      ⟨.exact b!"<0>1 1970-01-01T00:00:00Z - - - - [x a=\"1\"] say [\"hi\"] now", [4, 25, 27, 29, 31, 33, 43, 54], 55⟩, bracketMsg_good _, ?_⟩
    decide +kernel

/-! ## C14 -/

theorem decodeAll_marshal (reg : List SDID) (following : Bytes) (xs : List Bytes) (k : Nat) (hk : k ≤ following.length)
    (h : ∀ x ∈ xs, ∀ r, k ≤ r.length →
      ∃ sd, registryFound reg ⟨x, r⟩ = .ret (some sd) ∧ sd.marshal = .ret (.ok x)) :
    ∃ l, decodeAll reg following xs = .ret l ∧ l.map SD.marshal = xs.map fun x => .ret (.ok x) := by
  induction xs with
  | nil => exact ⟨[], rfl, rfl⟩
  | cons x r ih =>
    obtain ⟨l, h1, h2⟩ := ih fun y hy => h y (by simp [hy])
    obtain ⟨sd, h3, h4⟩ := h x (by simp) (r.flatten ++ following) (by simp; omega)
    refine ⟨sd :: l, ?_, by simp [h2, h4]⟩
    simp only [decodeAll]
    rw [h3, h1]
    rfl

/-- C14 (partial): `Parse`, `Writable`, `Marshal5424` give the same bytes back for every message with a valid
header and timestamp, whose structured data elements have parameters and are reproduced by the registered
decoders, and whose text does not interfere with the structured data. -/
theorem C14_identity_partial (m : Message) (h : GoodMsg m) (ht : m.timestamp.Valid) (xs : List (Bytes × List (Bytes × Bytes)))
    (hsd : MarshalsTo m.sd xs) (hq : m.sd ≠ [] → m.message ≠ [] → Quiet (b!" " ++ m.message))
    (reg : List SDID) (spare : Bytes) (atEOF : Bool)
    (hreg : ∀ x ∈ xs, ∀ following : Bytes, spare.length ≤ following.length →
      ∃ sd, registryFound reg ⟨elementText x.1 x.2, following⟩ = .ret (some sd) ∧
        sd.marshal = .ret (.ok (elementText x.1 x.2))) :
    ∃ b p w, m.marshal = .ret (.ok b) ∧ parse (some ⟨b, spare⟩) none atEOF = .ret (p, none, none) ∧
      p.writable reg = .ret w ∧ w.marshal = .ret (.ok b) := by
  obtain ⟨b, idx, txt, hb, hL⟩ := layout_msg h hsd hq
  have hv := Layout.view (data := ⟨b, spare⟩) hL
  obtain ⟨h1, h2, h3, h4, h5, h6⟩ := readBack h hv
  have hts : (MsgImm.mk ⟨b, spare⟩ idx txt).timeStamp = .ret m.timestamp.microseconds := by
    obtain ⟨a', b', c', d', e', f', hfs, _, h0, _⟩ := hv.fields
    simp only [wireFields, List.cons.injEq, and_true] at hfs
    unfold MsgImm.timeStamp
    rw [h0, ← hfs.2.1]
    simp only [Out.ret_bind, Out.pure_eq]
    rw [Time.parse_format ht]
    rfl
  have hsdl : ∃ l, (MsgImm.mk ⟨b, spare⟩ idx txt).structuredData reg = .ret l ∧ l.map SD.marshal = m.sd.map SD.marshal := by
    rw [hv.structuredData]
    by_cases hx : xs = []
    · subst hx
      refine ⟨[], rfl, ?_⟩
      have := hsd.1
      simp only [List.map_nil, List.map_eq_nil_iff] at this
      rw [this]
    · rw [if_neg (not_dash xs hx)]
      obtain ⟨l, hl1, hl2⟩ := decodeAll_marshal reg ((if m.message = [] then none else some (SP :: m.message)).getD [] ++ spare)
        (xs.map fun x => elementText x.1 x.2) spare.length (by simp) (by
          intro x hx r hr
          simp only [List.mem_map] at hx
          obtain ⟨y, hy, rfl⟩ := hx
          exact hreg y hy r hr)
      refine ⟨l, hl1, ?_⟩
      rw [hl2, hsd.1, List.map_map]; rfl
  obtain ⟨l, hl1, hl2⟩ := hsdl
  refine ⟨b, _, ⟨m.prio, m.timestamp.microseconds, m.hostname, m.appname, m.procid, m.msgid, l, m.message⟩, hb,
    parse_layout ⟨b, spare⟩ atEOF hL, ?_, ?_⟩
  · unfold MsgImm.writable
    rw [h1, hts, h2, h3, h4, h5, hl1, h6]
    rfl
  · have key : ∀ l l' : List SD, l.map SD.marshal = l'.map SD.marshal → sdListMarshal l = sdListMarshal l' := by
      intro l l' e
      have hlen : l.length = l'.length := by simpa using congrArg List.length e
      unfold sdListMarshal
      rw [hlen]
      split
      · rfl
      · clear hlen
        induction l generalizing l' with
        | nil => cases l' with
          | nil => rfl
          | cons => simp at e
        | cons a r ih =>
          cases l' with
          | nil => simp at e
          | cons a' r' =>
            simp only [List.map_cons, List.cons.injEq] at e
            unfold encodeAll
            rw [e.1]
            by_cases hr' : r' = []
            · subst hr'
              have : r = [] := by simpa using e.2
              subst this; rfl
            · rw [ih r' e.2 (by simpa using hr')]
    unfold Message.marshal at hb ⊢
    simp only at hb ⊢
    rw [key l m.sd hl2, Time.format_trunc ht.nsec]
    exact hb

/-- C14 (partial): the hypothesis on the decoders holds when nothing is registered. -/
theorem C14_identity_unregistered_partial (m : Message) (h : GoodMsg m) (ht : m.timestamp.Valid)
    (xs : List (Bytes × List (Bytes × Bytes)))
    (hsd : MarshalsTo m.sd xs) (hq : m.sd ≠ [] → m.message ≠ [] → Quiet (b!" " ++ m.message)) (spare : Bytes) (atEOF : Bool) :
    ∃ b p w, m.marshal = .ret (.ok b) ∧ parse (some ⟨b, spare⟩) none atEOF = .ret (p, none, none) ∧
      p.writable [] = .ret w ∧ w.marshal = .ret (.ok b) := by
  refine C14_identity_partial m h ht xs hsd hq [] spare atEOF ?_
  intro x hx f _
  obtain ⟨b, hm, hb, hd⟩ := C22_encode_decode_partial x.1 x.2 (hsd.2 x hx).1 (hsd.2 x hx).2 f
  subst hb
  exact ⟨_, hd, hm⟩

/-- C14 (partial): it holds as well with the `timequality` package imported, for elements that are either
written by `TimeQuality.Marshal5424` (with a positive accuracy, if any) or whose identifier does not start with
`timeQuality`, when the buffer has some spare capacity. -/
theorem C14_identity_timequality_partial (m : Message) (h : GoodMsg m) (ht : m.timestamp.Valid)
    (xs : List (Bytes × List (Bytes × Bytes)))
    (hsd : MarshalsTo m.sd xs) (hq : m.sd ≠ [] → m.message ≠ [] → Quiet (b!" " ++ m.message)) (spare : Bytes) (atEOF : Bool)
    (hspare : 12 ≤ spare.length)
    (htq : ∀ x ∈ xs, ¬ b!"timeQuality" <+: x.1 ∨
      ∃ t : TimeQuality, ¬ TqForbidden t ∧ (∀ a, t.syncAccuracy = some a → 0 < a ∧ a < 2 ^ 63) ∧
        t.marshal = .ret (.ok (elementText x.1 x.2))) :
    ∃ b p w, m.marshal = .ret (.ok b) ∧ parse (some ⟨b, spare⟩) none atEOF = .ret (p, none, none) ∧
      p.writable [tqSDID] = .ret w ∧ w.marshal = .ret (.ok b) := by
  refine C14_identity_partial m h ht xs hsd hq [tqSDID] spare atEOF ?_
  intro x hx f hf
  rcases htq x hx with hn | ⟨t, h1, h2, h3⟩
  · obtain ⟨b, hm, hb, hd⟩ := C22_encode_decode_partial x.1 x.2 (hsd.2 x hx).1 (hsd.2 x hx).2 f
    subst hb
    refine ⟨_, ?_, hm⟩
    obtain ⟨inner, hin, hin2⟩ : ∃ inner, elementText x.1 x.2 = LBRK :: (inner ++ [RBRK]) ∧
        inner = x.1 ++ (x.2.map fun p => b!" " ++ paramText p).flatten := ⟨_, by simp [elementText], rfl⟩
    have hno : tqFound ⟨elementText x.1 x.2, f⟩ = .ret none := by
      rw [hin, tqFound_bracket, if_neg (by omega), if_neg]
      intro he
      apply hn
      have hpre : b!"timeQuality" <+: inner := ⟨inner.drop 11, by rw [← he]; exact List.take_append_drop _ _⟩
      rw [hin2] at hpre
      by_cases hl : 11 ≤ x.1.length
      · exact List.prefix_of_prefix_length_le hpre (List.prefix_append _ _) (by simpa using hl)
      · exfalso
        obtain ⟨p, ps, hps⟩ : ∃ p ps, x.2 = p :: ps := by
          cases hx2 : x.2 with
          | nil => exact absurd hx2 (hsd.2 x hx).2
          | cons p ps => exact ⟨p, ps, rfl⟩
        rw [hps] at hpre
        have h0 : (x.1 ++ [32]) <+: b!"timeQuality" := by
          refine List.prefix_of_prefix_length_le ?_ hpre (by simp; omega)
          exact ⟨_, by simp [paramText]; rfl⟩
        have := h0.subset (show (32 : UInt8) ∈ x.1 ++ [32] by simp)
        exact absurd this (by decide)
    simp only [registryFound, tqSDID]
    rw [hno]
    simpa using hd
  · obtain ⟨b, ds, _, hm, _, hd⟩ := C23_round_trip_partial t h1 h2 f
    rw [h3] at hm
    simp only [Out.ret.injEq, Except.ok.injEq] at hm
    subst hm
    refine ⟨.tq t, ?_, h3⟩
    simp only [registryFound, tqSDID]
    rw [hd]

example : ∀ x ∈ [(b!"x@1", [(b!"a", b!"1"), (b!"b", b!"\\]")]),
      (b!"timeQuality", [(b!"tzKnown", b!"1"), (b!"isSynced", b!"1"), (b!"syncAccuracy", b!"17")])],
    ¬ b!"timeQuality" <+: x.1 ∨
      ∃ t : TimeQuality, ¬ TqForbidden t ∧ (∀ a, t.syncAccuracy = some a → 0 < a ∧ a < 2 ^ 63) ∧
        t.marshal = .ret (.ok (elementText x.1 x.2)) := by
  intro x hx
  simp only [List.mem_cons, List.not_mem_nil, or_false] at hx
  rcases hx with rfl | rfl
  · left; decide +kernel
  · right
    refine ⟨⟨true, true, some 17⟩, by simp [TqForbidden], ?_, by decide +kernel⟩
    intro a ha
    simp at ha; omega

/-- C14 is violated: a message that comes from the network is not always reproduced: parameters with the value 0
disappear (and the new message cannot be parsed any more), and an accuracy of 0 makes `Marshal5424` panic. -/
theorem C14_timequality_violated :
    ∃ p w p2 w2,
      parse (some ⟨b!"<1>1 1970-01-01T00:00:00Z - - - - [timeQuality tzKnown=\"0\"] x", []⟩) none true = .ret (p, none, none) ∧
      p.writable [tqSDID] = .ret w ∧ w.marshal = .ret (.ok b!"<1>1 1970-01-01T00:00:00Z - - - - [timeQuality] x") ∧
      (∃ e, parse (some (.exact b!"<1>1 1970-01-01T00:00:00Z - - - - [timeQuality] x")) none true = .ret (MsgImm.zero, none, some e)) ∧
      parse (some ⟨b!"<1>1 - - - - - [timeQuality tzKnown=\"1\" isSynced=\"1\" syncAccuracy=\"0\"] x", []⟩) none true =
        .ret (p2, none, none) ∧
      p2.writable [tqSDID] = .ret w2 ∧ w2.marshal = .panic := by
  refine ⟨⟨.exact b!"<1>1 1970-01-01T00:00:00Z - - - - [timeQuality tzKnown=\"0\"] x", [4, 25, 27, 29, 31, 33, 59], 60⟩,
    ⟨1, .epoch, b!"-", b!"-", b!"-", b!"-", [.tq ⟨false, false, none⟩], b!"x"⟩,
    ⟨.exact b!"<1>1 - - - - - [timeQuality tzKnown=\"1\" isSynced=\"1\" syncAccuracy=\"0\"] x", [4, 6, 8, 10, 12, 14, 70], 71⟩,
    ⟨1, .zero, b!"-", b!"-", b!"-", b!"-", [.tq ⟨true, true, some 0⟩], b!"x"⟩, ?_, rfl, ?_, ⟨.parseError 45 "\\\\ or \" expected", ?_⟩, ?_, rfl, ?_⟩
  · decide +kernel
  · decide +kernel
  · decide +kernel
  · decide +kernel
  · rfl

end Syslog5424
