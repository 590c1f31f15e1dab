import Verif.Props.Content
import Verif.Spec.Registered
/-! # C99: structured data that is received with registered identifiers -/
namespace Syslog5424
open Spec

theorem registryFound_none {reg : List SDID} {data : Slice} (h : ∀ i ∈ reg, i.found data = .ret none) :
    registryFound reg data = unknownFound data := by
  induction reg with
  | nil => rfl
  | cons i r ih =>
    simp only [registryFound]
    rw [h i (by simp)]
    exact ih fun j hj => h j (by simp [hj])

theorem element_bracket (id : Bytes) (ps : List (Bytes × Bytes)) :
    elementText id ps = LBRK :: ((id ++ (ps.map fun p => b!" " ++ paramText p).flatten) ++ [RBRK]) := by
  simp [elementText]

theorem generic_skips {n id following : Bytes} {ps : List (Bytes × Bytes)} (hn : IsName n) (hne : ps ≠ [])
    (hl : n.length < (elementText id ps).length) : (genericSDID n).found ⟨elementText id ps, following⟩ = .ret none := by
  have hb : RBRK ∉ n := fun h => by have := hn.2 _ h; exact absurd this (by decide)
  have hs : (32 : UInt8) ∉ n := fun h => by have := hn.2 _ h; exact absurd this (by decide)
  rw [element_bracket] at hl ⊢
  simp only [genericSDID]
  rw [C24_generic_partial n _ following hb, if_neg (by simp at hl ⊢; omega), if_neg]
  rintro rfl
  apply hs
  cases ps with
  | nil => exact absurd rfl hne
  | cons p ps => simp

/-- A registry of identifiers of the package reads the elements as it must. -/
theorem readAs_package {reg : List SDID} (htq : tqSDID ∈ reg) {id : Bytes} {ps : List (Bytes × Bytes)} (hw : WellFormed id ps)
    (hne : ps ≠ []) {v : SD} (hm : v.marshal = .ret (.ok (elementText id ps))) (hfit : ∀ i ∈ reg, Fits i (elementText id ps)) :
    ∃ w, ArrivesAs v w ∧ ReadAs reg v w := by
  have h12 : 12 ≤ (elementText id ps).length := by
    rcases hfit _ htq with ⟨_, h⟩ | ⟨n, _, he, hl⟩
    · exact h
    · exfalso
      have h1 : (genericSDID n).found ⟨b!"[timeQuality tzKnown=\"1\"]", n⟩ = .ret none ∨
          (genericSDID n).found ⟨b!"[timeQuality tzKnown=\"1\"]", n⟩ ≠ .ret (some (.tq ⟨true, false, none⟩)) := by
        right
        simp only [genericSDID, genericFound]
        intro h
        rcases openElement_cases ⟨b!"[timeQuality tzKnown=\"1\"]", n⟩ with ⟨_, ho⟩ | ⟨_, _, ho⟩ | ⟨inner, hv, ho⟩ <;> rw [ho] at h
        · simp at h
        · simp at h
        · simp only [Out.ret_bind, sub_zero_cap] at h
          split at h
          · simp only [Out.ret_bind] at h
            split at h
            · simp at h
            · unfold Slice.from_ at h
              split at h
              · simp only [Out.ret_bind] at h
                split at h <;> simp at h
              · simp at h
          · simp at h
      rw [← he] at h1
      have h2 : tqSDID.found ⟨b!"[timeQuality tzKnown=\"1\"]", n⟩ = .ret (some (.tq ⟨true, false, none⟩)) := by
        obtain ⟨b, ds, _, g1, _, g2⟩ := C23_round_trip_partial ⟨true, false, none⟩ (by simp [TqForbidden]) (by simp) n
        have : TimeQuality.marshal ⟨true, false, none⟩ = .ret (.ok b!"[timeQuality tzKnown=\"1\"]") := rfl
        rw [this] at g1
        simp only [Out.ret.injEq, Except.ok.injEq] at g1
        subst g1
        exact g2
      rw [h2] at h1
      simp at h1
  have htext : elementText id ps ≠ [] := by simp [elementText]
  by_cases hq : ∃ t, IsTqText (elementText id ps) t
  · obtain ⟨t, ht⟩ := hq
    refine ⟨_, .quality hm ht, _, hm, fun following => ?_⟩
    have hf : tqSDID.found ⟨elementText id ps, following⟩ = .ret (some (.tq t)) := (tqFound_reads _ _ _).mpr ⟨t, ht, rfl⟩
    refine registryFound_one htq hf ?_
    intro j hj
    rcases hfit j hj with ⟨rfl, _⟩ | ⟨n, hn, rfl, hl⟩
    · exact .inr hf
    · exact .inl (generic_skips hn hne hl)
  · refine ⟨_, .other hm hw hne (fun t ht => hq ⟨t, ht⟩), _, hm, fun following => ?_⟩
    rw [registryFound_none, ← unregistered (els := [(id, ps)]) (by simpa using ⟨hw, hne⟩) (id, ps) (by simp) following]
    · rfl
    intro i hi
    rcases hfit i hi with ⟨rfl, _⟩ | ⟨n, hn, rfl, hl⟩
    · obtain ⟨r, hr⟩ := tqFound_total (data := ⟨elementText id ps, following⟩) htext (by simp [Slice.cap]; omega)
      cases r with
      | none => exact hr
      | some sd =>
        obtain ⟨t, ht, _⟩ := (tqFound_reads _ _ _).mp hr
        exact absurd ⟨t, ht⟩ hq
    · exact generic_skips hn hne hl

/-- **C99.** A program that registers identifiers reads what it receives with them: when each element that was sent, with
whatever type, is text that the registered identifiers read as some value, wherever it is in memory, then what
`StructuredData` returns for the message that was received (in the sense of C53, C61, C72, C73, C74...) is exactly these
values, in the order in which the elements were sent. -/
theorem C99_registered (m : Message) (d : Tok.Delivered) (h : IsReceived m d) (reg : List SDID) (ws : List SD)
    (hr : Each (ReadAs reg) m.sd ws) : d.msg.structuredData reg = .ret ws := by
  let f : SD → SD := fun v => match v.marshal with
    | .ret (.ok b) => match registryFound reg ⟨b, []⟩ with
      | .ret (some w) => w
      | _ => v
    | _ => v
  have hf : ∀ v w, ReadAs reg v w → f v = w := by
    rintro v w ⟨b, h1, h2⟩
    simp only [f, h1, h2]
  have hmap : m.sd.map f = ws := by
    clear h
    generalize m.sd = sd at hr
    induction hr with
    | nil => rfl
    | cons a _ ih => simp [hf _ _ a, ih]
  rw [← hmap]
  apply h.registered
  intro v hv
  have : ∃ w, ReadAs reg v w := by
    clear hmap h
    generalize m.sd = sd at hr hv
    induction hr with
    | nil => simp at hv
    | cons a _ ih =>
      rcases List.mem_cons.mp hv with rfl | hv
      · exact ⟨_, a⟩
      · exact ih hv
  obtain ⟨w, hw⟩ := this
  rw [hf v w hw]
  exact hw

/-- **C99.** With the `timequality` package imported, and any `GenericSDID`s registered, in any order of the registry: the
message that was received has one value for each element that was sent, in the same order; those which are timeQuality
elements of the RFC are `TimeQuality` values that say what the text says, the others are what was sent. Missing: elements
shorter than the registered names, see `C99_short_violated`. -/
theorem C99_package_partial (m : Message) (d : Tok.Delivered) (h : IsReceived m d) (els : List (Bytes × List (Bytes × Bytes)))
    (hels : MarshalsTo m.sd els) (reg : List SDID) (htq : tqSDID ∈ reg)
    (hfit : ∀ i ∈ reg, ∀ x ∈ els, Fits i (elementText x.1 x.2)) :
    ∃ l, d.msg.structuredData reg = .ret l ∧ Each ArrivesAs m.sd l := by
  have key : ∃ l, Each (fun v w => ArrivesAs v w ∧ ReadAs reg v w) m.sd l := by
    obtain ⟨h1, h2⟩ := hels
    revert h1
    generalize m.sd = sd
    intro h1
    induction sd generalizing els with
    | nil => exact ⟨[], .nil⟩
    | cons v sd ih => cases els with
      | nil => simp at h1
      | cons x els =>
        simp only [List.map_cons, List.cons.injEq] at h1
        obtain ⟨l, hl⟩ := ih els (fun i hi y hy => hfit i hi y (by simp [hy])) (fun y hy => h2 y (by simp [hy])) h1.2
        obtain ⟨w, hw⟩ := readAs_package htq (h2 x (by simp)).1 (h2 x (by simp)).2 h1.1 fun i hi => hfit i hi x (by simp)
        exact ⟨w :: l, .cons hw hl⟩
  obtain ⟨l, hl⟩ := key
  refine ⟨l, C99_registered m d h reg l ?_, ?_⟩
  · clear h hels
    generalize m.sd = sd at hl
    induction hl with
    | nil => exact .nil
    | cons a _ ih => exact .cons a.2 ih
  · clear h hels
    generalize m.sd = sd at hl
    induction hl with
    | nil => exact .nil
    | cons a _ ih => exact .cons a.1 ih

/-- **C99.** `TimeQuality` values (with a positive accuracy, if any) and elements that were themselves received arrive as
themselves. -/
theorem C99_itself (v w : SD) (h : ArrivesAs v w) :
    (∀ t : TimeQuality, v = .tq t → (∀ x, t.syncAccuracy = some x → x < 2 ^ 63) → w = v) ∧
    (∀ id ps, v = .unknown id ps → WellFormed id ps → id ≠ b!"timeQuality" → w = v) := by
  refine ⟨?_, ?_⟩
  · rintro t rfl hx
    have ok : ∀ {b}, t.marshal = .ret (.ok b) → ∀ spare, tqFound ⟨b, spare⟩ = .ret (some (.tq t)) := by
      intro b hb spare
      have hn : ¬ TqForbidden t := by
        intro hc
        obtain ⟨e, he⟩ := (C23_error_iff t).mpr hc
        rw [he] at hb; simp at hb
      obtain ⟨b', ds, _, h1, _, h2⟩ := C23_round_trip_partial t hn (fun x hs => ⟨by
        rcases Int.lt_or_le 0 x with h0 | h0
        · exact h0
        · have := (C23_panics_exactly_partial t).mpr ⟨hn, x, hs, h0⟩
          rw [this] at hb; simp at hb, hx x hs⟩) spare
      rw [hb] at h1
      simp only [Out.ret.injEq, Except.ok.injEq] at h1
      subst h1
      exact h2
    cases h with
    | quality hm ht =>
      have h1 := ok hm []
      rw [(tqFound_reads _ [] _).mpr ⟨_, ht, rfl⟩] at h1
      simpa using h1
    | other hm _ _ hno =>
      obtain ⟨t', ht, _⟩ := (tqFound_reads _ _ _).mp (ok hm [])
      exact absurd ht (hno t')
  · rintro id ps rfl hw hid
    have hm' : (SD.unknown id ps).marshal = .ret (.ok (elementText id ps)) := by
      show (Out.ret (Except.ok (unknownMarshal id ps)) : Res Bytes) = _
      rw [unknownMarshal_eq]
    cases h with
    | quality hm ht =>
      exfalso
      rw [hm'] at hm
      simp only [Out.ret.injEq, Except.ok.injEq] at hm
      subst hm
      obtain ⟨l, he, _⟩ := ht
      have first : ∀ l : List (Bytes × Bytes), ∃ c r, (l.map fun p => b!" " ++ paramText p).flatten ++ b!"]" = c :: r ∧ ¬ NameByte c := by
        intro l
        cases l with
        | nil => exact ⟨93, [], rfl, by decide⟩
        | cons p l => exact ⟨32, _, rfl, by decide⟩
      have first' : ∀ l : List (Nat × Bytes × Bytes), ∃ c r, spacedParams l ++ b!"]" = c :: r ∧ ¬ NameByte c := by
        intro l
        cases l with
        | nil => exact ⟨93, [], rfl, by decide⟩
        | cons p l =>
          refine ⟨32, ?_, ?_, by decide⟩
          · exact List.replicate p.1 32 ++ paramText p.2 ++ spacedParams l ++ b!"]"
          · simp [spacedParams, List.replicate_succ]
      obtain ⟨c, r, e1, hc⟩ := first ps
      obtain ⟨c', r', e2, hc'⟩ := first' l
      have he' : id ++ c :: r = b!"timeQuality" ++ c' :: r' := by
        rw [← e1, ← e2]
        have : b!"[" ++ (id ++ ((ps.map fun p => b!" " ++ paramText p).flatten ++ b!"]")) = b!"[" ++ (b!"timeQuality" ++ (spacedParams l ++ b!"]")) := by
          have e3 : (b!"[timeQuality" : Bytes) = b!"[" ++ b!"timeQuality" := rfl
          rw [e3] at he
          simpa [elementText] using he
        exact List.append_cancel_left this
      exact hid (name_split hw.1.2 (by decide +kernel) hc hc' he').1
    | other hm hw' _ _ =>
      rw [hm'] at hm
      simp only [Out.ret.injEq, Except.ok.injEq] at hm
      obtain ⟨rfl, rfl⟩ := elementText_injective hw.1.2 hw'.1.2 hw.2.1 hw'.2.1 hm
      rfl

/-- **C99.** Structs and maps arrive as their identifier, names and values, where these are not those of a timeQuality
element. -/
theorem C99_content (v w : SD) (id : Bytes) (ps : List (Bytes × Bytes)) (hv : Holds v id ps) (hn : Named (id, ps)) (hid : id ≠ b!"timeQuality")
    (h : ArrivesAs v w) : ∃ qs, w = .unknown id qs ∧ texts (id, qs) = (id, ps) := by
  have hm := holds_marshal hv
  have hw := (named_wellFormed hn).1
  refine ⟨ps.map fun p => (p.1, escaped p.2), ?_, texts_escaped (id, ps)⟩
  have hu : ArrivesAs (.unknown id (ps.map fun p => (p.1, escaped p.2))) w := by
    have hm' : (SD.unknown id (ps.map fun p => (p.1, escaped p.2))).marshal = v.marshal := by
      rw [hm]
      show (Out.ret (Except.ok (unknownMarshal id _)) : Res Bytes) = _
      rw [unknownMarshal_eq]
    cases h with
    | quality h1 h2 => exact .quality (hm'.trans h1) h2
    | other h1 h2 h3 h4 => exact .other (hm'.trans h1) h2 h3 h4
  exact (C99_itself _ _ hu).2 id _ rfl hw hid

theorem each_imp {α β : Type} {R S : α → β → Prop} {as : List α} {bs : List β} (h : Each R as bs) (hi : ∀ a ∈ as, ∀ b, R a b → S a b) : Each S as bs := by
  induction h with
  | nil => exact .nil
  | cons a _ ih => exact .cons (hi _ (by simp) _ a) (ih fun x hx => hi x (by simp [hx]))

/-- **C99.** From one process to another: under the conditions of C53, at every moment, what `StructuredData` gives for the
messages that `Receive` has returned is what the messages that were sent contain. -/
theorem C99_sent_partial (es : List Sender.Event) (s : Sender.State) (hs : History .rfc5425 es s) (hmsgs : ∀ m ∈ sent es, Transmissible m)
    (c : Sender.Conn) (r : List Sender.Conn) (hc : s.conns = c :: r)
    (lenQueue : Nat) (er : List Recv.Event) (q : Recv.State) (hq : Recv.run .rfc5425 lenQueue Recv.init er = some q) (hcr : q.crashed = false)
    (i : Nat) (k : Recv.Conn) (hi : q.conns[i]? = some k) (hwire : arrived (readsOf i er) <+: c.writes.flatten)
    (reg : List SDID) (htq : tqSDID ∈ reg)
    (hfit : ∀ j ∈ reg, ∀ m ∈ sent es, ∀ v ∈ m.sd, ∀ b, v.marshal = .ret (.ok b) → Fits j b) :
    Each (fun m d => ∃ l, d.msg.structuredData reg = .ret l ∧ Each ArrivesAs m.sd l) ((sent es).take (ofConn i q.got).length) (ofConn i q.got) := by
  refine each_imp (C53_in_order_partial es s hs hmsgs c r hc lenQueue er q hq hcr i k hi hwire) ?_
  intro m hm d hd
  have hm := List.mem_of_mem_take hm
  obtain ⟨els, hels⟩ := (hmsgs m hm).sd
  refine C99_package_partial m d hd els hels reg htq ?_
  intro j hj x hx
  have : (.ret (.ok (elementText x.1 x.2)) : Res Bytes) ∈ m.sd.map SD.marshal := by
    rw [hels.1]; exact List.mem_map.mpr ⟨x, hx, rfl⟩
  obtain ⟨v, hv, he⟩ := List.mem_map.mp this
  exact hfit j hj m hm v hv _ he

/-- C99 is violated: with `timequality` imported, a message with a short element, that was sent and received without an
error, makes `StructuredData` panic where the buffer ends with the element. -/
theorem C99_short_violated :
    ∃ m b p, m.sd = [.unknown b!"a" [(b!"b", b!"c")]] ∧ m.marshal = .ret (.ok b) ∧
      parse (some (.exact (Transport.rfc5425.encode b))) (some .rfc5425) false = .ret (p, some (.exact []), none) ∧
      IsReceived m ⟨0, p, none⟩ ∧ p.structuredData [] = .ret m.sd ∧ p.structuredData [tqSDID] = .panic := by
  have hg : GoodMsg (Message.empty.addSD [.unknown b!"a" [(b!"b", b!"c")]]) := by
    constructor <;> (simp only [Message.addSD, Message.empty]; decide +kernel)
  have hI : Intact (Message.empty.addSD [.unknown b!"a" [(b!"b", b!"c")]]) := by
    refine ⟨hg, by constructor <;> (simp only [Message.addSD, Message.empty]; decide +kernel), ⟨[(b!"a", [(b!"b", b!"c")])], rfl, ?_⟩, ?_⟩
    · intro x hx
      simp only [List.mem_singleton] at hx
      subst hx
      refine ⟨wellFormed_of_names (by decide +kernel) ?_, by simp⟩
      intro p hp
      simp only [List.mem_singleton] at hp
      subst hp
      exact ⟨by decide +kernel, .byte (by decide) (by decide) (by decide) .nil⟩
    · intro _; exact freeText_plain (by simp [Message.addSD, Message.empty])
  have hm : (Message.empty.addSD [.unknown b!"a" [(b!"b", b!"c")]]).marshal = .ret (.ok b!"<0>1 1970-01-01T00:00:00Z - - - - [a b=\"c\"]") := by
    decide +kernel
  obtain ⟨b', els, hb, hels, hf, h20⟩ := transmissible_frame hI
  rw [hm] at hb
  simp only [Out.ret.injEq, Except.ok.injEq] at hb
  subst hb
  obtain ⟨p, e, g1, g2⟩ := parse_5425_conveys b!"<0>1 1970-01-01T00:00:00Z - - - - [a b=\"c\"]" [] [] false (by decide) (by decide +kernel)
  have := (g2.message hf).1
  subst this
  have hp : parse (some ⟨Transport.rfc5425.encode b!"<0>1 1970-01-01T00:00:00Z - - - - [a b=\"c\"]" ++ [], []⟩) (some .rfc5425) false =
      .ret (⟨.exact b!"<0>1 1970-01-01T00:00:00Z - - - - [a b=\"c\"]", [4, 25, 27, 29, 31, 33, 43], -1⟩, some (.exact []), none) := by
    decide +kernel
  rw [hp] at g1
  simp only [Out.ret.injEq, Prod.mk.injEq, and_true] at g1
  refine ⟨_, _, p, rfl, hm, ?_, conveys_isReceived hI hm (d := ⟨0, p, none⟩) g2, ?_, ?_⟩
  · rw [List.append_nil] at hp
    rw [← g1.1]
    exact hp
  · rw [← g1.1]; rfl
  · rw [← g1.1]; rfl

/-- The hypotheses of `C99_sent_partial` on the elements are met by the message of the example of C53, which has a
`TimeQuality` and another element, where `timequality` is imported and `GenericSDID` was called. -/
example : ∀ j ∈ [genericSDID b!"x@1", tqSDID], ∀ m ∈ sent demoSent, ∀ v ∈ m.sd, ∀ b, v.marshal = .ret (.ok b) → Fits j b := by
  intro j hj m hm v hv b hb
  have : m = demoMsg := by simpa [demoSent, sent] using hm
  subst this
  have h12 : 12 ≤ b.length := by
    simp only [demoMsg, exampleMsg, List.mem_cons, List.not_mem_nil, or_false] at hv
    rcases hv with rfl | rfl
    · simp only [SD.marshal, Out.ret.injEq, Except.ok.injEq] at hb
      rw [← hb]; decide +kernel
    · have : SD.marshal (.tq ⟨true, true, some 17⟩) = .ret (.ok b!"[timeQuality tzKnown=\"1\" isSynced=\"1\" syncAccuracy=\"17\"]") := by decide +kernel
      rw [this] at hb
      simp only [Out.ret.injEq, Except.ok.injEq] at hb
      rw [← hb]; decide +kernel
  simp only [List.mem_cons, List.not_mem_nil, or_false] at hj
  rcases hj with rfl | rfl
  · exact .inr ⟨b!"x@1", by decide +kernel, rfl, by simp; omega⟩
  · exact .inl ⟨rfl, h12⟩

/-- What the `TimeQuality` of this message arrives as. -/
example (w : SD) (h : ArrivesAs (.tq ⟨true, true, some 17⟩) w) : w = .tq ⟨true, true, some 17⟩ :=
  (C99_itself _ _ h).1 _ rfl (by simp)

/-- A value of a type of the application, registered under its own identifier, arrives as this type (`C99_registered`). -/
example (m : Message) (d : Tok.Delivered) (h : IsReceived m d) (own : SD) (ho : own = .custom (.ret (.ok b!"[own@1 k=\"v\"]"))) (hm : m.sd = [own]) :
    d.msg.structuredData [⟨b!"own@1", fun x => if x.vis = b!"[own@1 k=\"v\"]" then .ret (some own) else .ret none⟩] = .ret [own] := by
  refine C99_registered m d h _ _ ?_
  rw [hm]
  refine .cons ⟨b!"[own@1 k=\"v\"]", by rw [ho]; rfl, fun _ => ?_⟩ .nil
  rw [registryFound]; rfl

end Syslog5424
