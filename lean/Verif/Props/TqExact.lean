import Verif.Spec.TqCanonical
import Verif.Props.Relay
import Verif.Props.Content
/-! # C14, C106: exactly which messages a program that imports timequality reproduces -/
namespace Syslog5424
open Spec

theorem tqText_unique {b : Bytes} {t t' : TimeQuality} (h : IsTqText b t) (h' : IsTqText b t') : t = t' := by
  have h1 := (tqFound_reads b [] _).mpr ⟨t, h, rfl⟩
  have h2 := (tqFound_reads b [] _).mpr ⟨t', h', rfl⟩
  rw [h1] at h2
  simpa using h2

/-- What a `TimeQuality` that says something is written as. -/
theorem tq_written {t : TimeQuality} {b : Bytes} (hm : t.marshal = .ret (.ok b)) (hx : ∀ x, t.syncAccuracy = some x → x < 2 ^ 63) :
    b = b!"[timeQuality]" ∨ ∃ ps, TqShortest ps ∧ b = elementText b!"timeQuality" ps ∧ (∀ p ∈ ps, IsName p.1 ∧ RawValue p.2) ∧ ps ≠ [] := by
  have hn : ¬ TqForbidden t := by
    intro hc
    obtain ⟨e, he⟩ := (C23_error_iff t).mpr hc
    rw [he] at hm; simp at hm
  have hpos : ∀ x, t.syncAccuracy = some x → 0 < x := by
    intro x hs
    rcases Int.lt_or_le 0 x with h0 | h0
    · exact h0
    · rw [(C23_panics_exactly_partial t).mpr ⟨hn, x, hs, h0⟩] at hm; simp at hm
  obtain ⟨b', ds, hd, h1, h2, _⟩ := C23_round_trip_partial t hn (fun x hs => ⟨hpos x hs, hx x hs⟩) []
  rw [hm] at h1
  simp only [Out.ret.injEq, Except.ok.injEq] at h1
  subst h1
  have n1 : IsName b!"tzKnown" := by decide +kernel
  have n2 : IsName b!"isSynced" := by decide +kernel
  have n3 : IsName b!"syncAccuracy" := by decide +kernel
  have r1 : RawValue b!"1" := .byte (by decide) (by decide) (by decide) .nil
  obtain ⟨tz, sy, acc⟩ := t
  cases tz with
  | false =>
    cases sy with
    | true => exact absurd (.inl ⟨rfl, rfl⟩) hn
    | false =>
      cases acc with
      | some x => exact absurd (.inr ⟨rfl, by simp⟩) hn
      | none => left; rw [h2]; rfl
  | true =>
    right
    cases sy with
    | false =>
      cases acc with
      | some x => exact absurd (.inr ⟨rfl, by simp⟩) hn
      | none => exact ⟨_, .inl rfl, by rw [h2]; rfl, by simpa using ⟨n1, r1⟩, by simp⟩
    | true =>
      cases acc with
      | none => exact ⟨_, .inr (.inl rfl), by rw [h2]; rfl, by simpa using ⟨⟨n1, r1⟩, n2, r1⟩, by simp⟩
      | some x =>
        have hx0 := hpos x rfl
        have hdec := hd x rfl
        refine ⟨_, .inr (.inr ⟨x.toNat, ds, by omega, by have := hx x rfl; omega, hdec, rfl⟩), by rw [h2]; rfl, ?_, by simp⟩
        have r3 : RawValue ds := by rw [← natDec_of_isDecimal ds _ hdec]; exact rawValue_natDec _
        simpa using ⟨⟨n1, r1⟩, ⟨n2, r1⟩, n3, r3⟩

theorem tqText_id {id : Bytes} {ps : List (Bytes × Bytes)} {t : TimeQuality} (hw : WellFormed id ps) (ht : IsTqText (elementText id ps) t) :
    id = b!"timeQuality" := by
  obtain ⟨l, he, _⟩ := ht
  have first : ∀ l : List (Bytes × Bytes), ∃ c r, (l.map fun p => b!" " ++ paramText p).flatten ++ b!"]" = c :: r ∧ ¬ NameByte c := by
    intro l
    cases l with
    | nil => exact ⟨93, [], rfl, by decide⟩
    | cons p l => exact ⟨32, paramText p ++ ((l.map fun p => b!" " ++ paramText p).flatten ++ b!"]"), by simp, by decide⟩
  have second : ∃ c r, spacedParams l ++ b!"]" = c :: r ∧ ¬ NameByte c := by
    cases l with
    | nil => exact ⟨93, [], rfl, by decide⟩
    | cons p l => exact ⟨32, (spacedParams (p :: l) ++ b!"]").tail, by simp [spacedParams, List.replicate_succ], by decide⟩
  have h1 : id ++ ((ps.map fun p => b!" " ++ paramText p).flatten ++ b!"]") = b!"timeQuality" ++ (spacedParams l ++ b!"]") := by
    simpa [elementText] using he
  obtain ⟨c, r, e1, hc⟩ := first ps
  obtain ⟨d, s, e2, hd⟩ := second
  rw [e1, e2] at h1
  exact (name_split hw.1.2 (by decide) hc hd h1).1

/-- A timeQuality element is written again as it is exactly if it has its shortest form. -/
theorem tq_rewritten {id : Bytes} {ps : List (Bytes × Bytes)} {t : TimeQuality} (hw : WellFormed id ps) (hne : ps ≠ [])
    (ht : IsTqText (elementText id ps) t) : t.marshal = .ret (.ok (elementText id ps)) ↔ TqShortest ps := by
  constructor
  · intro hm
    rcases tq_written hm (fun x hs => tq_accuracy_fits ht x hs) with h | ⟨qs, h1, h2, h3, _⟩
    · exfalso
      have h : elementText id ps = elementText b!"timeQuality" [] := h
      exact hne (elementText_injective hw.1.2 (by decide) hw.2.1 (by simp) h).2
    · rw [(elementText_injective hw.1.2 (by decide) hw.2.1 (fun p hp => ⟨(h3 p hp).1.2, (h3 p hp).2⟩) h2).2]
      exact h1
  · intro hs
    have hid := tqText_id hw ht
    subst hid
    have key : ∀ t' : TimeQuality, ¬ TqForbidden t' → (∀ x, t'.syncAccuracy = some x → 0 < x ∧ x < 2 ^ 63) →
        (∀ ds, (∀ x, t'.syncAccuracy = some x → IsDecimal x.toNat ds) → tqText t' ds = elementText b!"timeQuality" ps) →
        t.marshal = .ret (.ok (elementText b!"timeQuality" ps)) := by
      intro t' h1 h2 h3
      obtain ⟨b, ds, g1, g2, g3, g4⟩ := C23_round_trip_partial t' h1 h2 []
      have e : b = elementText b!"timeQuality" ps := by rw [g3, h3 ds g1]
      subst e
      obtain ⟨t'', k1, k2⟩ := (tqFound_reads _ _ _).mp g4
      simp only [SD.tq.injEq] at k2
      subst k2
      rw [tqText_unique ht k1]
      exact g2
    rcases hs with rfl | rfl | ⟨n, ds, h0, hlt, hd, rfl⟩
    · exact key ⟨true, false, none⟩ (by simp [TqForbidden]) (by simp) (fun ds _ => rfl)
    · exact key ⟨true, true, none⟩ (by simp [TqForbidden]) (by simp) (fun ds _ => rfl)
    · refine key ⟨true, true, some (n : Int)⟩ (by simp [TqForbidden]) (by simp; omega) (fun ds' h => ?_)
      have := h _ rfl
      simp only [Int.toNat_natCast] at this
      rw [← natDec_of_isDecimal _ _ this, natDec_of_isDecimal _ _ hd]
      rfl

theorem bind_ok_inv {α β : Type} {x : Res α} {f : α → Res β} {b : β} (h : Res.bind x f = .ret (.ok b)) :
    ∃ a, x = .ret (.ok a) ∧ f a = .ret (.ok b) := by
  rcases x with (e | a) | _ | _
  · simp [Res.bind] at h
  · exact ⟨a, rfl, by simpa [Res.bind] using h⟩
  · simp [Res.bind] at h
  · simp [Res.bind] at h

/-- The elements that were read are written as they were exactly if there are no timeQuality elements that are not in their shortest form. -/
theorem all_rewritten {sd ws : List SD} {els : List (Bytes × List (Bytes × Bytes))} (h : MarshalsTo sd els) (he : Each ArrivesAs sd ws) :
    (encodeAll SD.marshal ws = .ret (.ok (els.map fun x => elementText x.1 x.2).flatten) ↔ NoOtherTq els) ∧
    (NoOtherTq els → ws.map SD.marshal = sd.map SD.marshal) := by
  obtain ⟨h1, h2⟩ := h
  induction he generalizing els with
  | nil =>
    cases els with
    | nil => exact ⟨⟨fun _ x hx => by simp at hx, fun _ => rfl⟩, fun _ => rfl⟩
    | cons => simp at h1
  | @cons v w sd ws ha _ ih =>
    cases els with
    | nil => simp at h1
    | cons x els =>
      simp only [List.map_cons, List.cons.injEq] at h1
      obtain ⟨hv, h1⟩ := h1
      obtain ⟨i1, i2⟩ := ih h1 (fun y hy => h2 y (by simp [hy]))
      obtain ⟨hw, hne⟩ := h2 x (by simp)
      -- one element
      have one : w.marshal = .ret (.ok (elementText x.1 x.2)) ↔ ((∃ t, IsTqText (elementText x.1 x.2) t) → TqShortest x.2) := by
        cases ha with
        | @quality b t hb ht =>
          rw [hv] at hb
          simp only [Out.ret.injEq, Except.ok.injEq] at hb
          subst hb
          exact (tq_rewritten hw hne ht).trans ⟨fun h _ => h, fun h => h ⟨t, ht⟩⟩
        | @other id ps hb hw' hne' hn =>
          rw [hv] at hb
          simp only [Out.ret.injEq, Except.ok.injEq] at hb
          rw [hb]
          refine ⟨fun _ ⟨t, ht⟩ => absurd ht (hn t), fun _ => ?_⟩
          show (Out.ret (Except.ok (unknownMarshal _ _)) : Res Bytes) = _
          rw [unknownMarshal_eq]
      have split : NoOtherTq (x :: els) ↔ ((∃ t, IsTqText (elementText x.1 x.2) t) → TqShortest x.2) ∧ NoOtherTq els :=
        ⟨fun h => ⟨h x (by simp), fun y hy => h y (by simp [hy])⟩, fun ⟨g1, g2⟩ y hy => by
          rcases List.mem_cons.mp hy with rfl | hy
          · exact g1
          · exact g2 y hy⟩
      refine ⟨?_, fun h => ?_⟩
      · rw [split, ← one, ← i1]
        constructor
        · intro h0
          rw [encodeAll] at h0
          obtain ⟨y, hy, h0'⟩ := bind_ok_inv h0
          obtain ⟨Y, hY, h⟩ := bind_ok_inv h0'
          clear h0 h0'
          simp only [Out.ret.injEq, Except.ok.injEq, List.map_cons, List.flatten_cons] at h
          have hX := element_of_wellFormed hw hne
          have hyX : y = elementText x.1 x.2 ∧ Y = (els.map fun x => elementText x.1 x.2).flatten := by
            cases ha with
            | @quality b t hb ht =>
              rw [hv] at hb
              simp only [Out.ret.injEq, Except.ok.injEq] at hb
              subst hb
              rcases tq_written hy (fun x hs => tq_accuracy_fits ht x hs) with hq | ⟨qs, _, g2, g3, g4⟩
              · exfalso
                rw [hq, tqText_id hw ht] at h
                cases hps : x.2 with
                | nil => exact hne hps
                | cons p ps =>
                  rw [hps] at h
                  simp [elementText] at h
              · refine element_inj ?_ hX h
                rw [g2]
                exact element_of_wellFormed (wellFormed_of_names (by decide +kernel) g3) g4
            | @other id ps hb hw' hne' hn =>
              rw [hv] at hb
              simp only [Out.ret.injEq, Except.ok.injEq] at hb
              have : y = elementText id ps := by
                have e : (Out.ret (Except.ok (unknownMarshal id ps)) : Res Bytes) = .ret (.ok y) := hy
                simp only [Out.ret.injEq, Except.ok.injEq] at e
                rw [← e, unknownMarshal_eq]
              exact element_inj (by rw [this, ← hb]; exact hX) hX h
          exact ⟨by rw [hy, hyX.1], by rw [hY, hyX.2]⟩
        · rintro ⟨g1, g2⟩
          rw [encodeAll, g1, g2]
          rfl
      · obtain ⟨g1, g2⟩ := split.mp h
        simp only [List.map_cons, List.cons.injEq]
        exact ⟨by rw [one.mpr g1, hv], i2 g2⟩

theorem package_reads (m : Message) (els : List (Bytes × List (Bytes × Bytes))) (hels : MarshalsTo m.sd els) (reg : List SDID) (htq : tqSDID ∈ reg)
    (hfit : ∀ i ∈ reg, ∀ x ∈ els, Fits i (elementText x.1 x.2)) :
    ∃ ws, Each ArrivesAs m.sd ws ∧ Each (ReadAs reg) m.sd ws := by
  obtain ⟨h1, h2⟩ := hels
  revert h1
  generalize m.sd = sd
  intro h1
  induction sd generalizing els with
  | nil => exact ⟨[], .nil, .nil⟩
  | cons v sd ih => cases els with
    | nil => simp at h1
    | cons x els =>
      simp only [List.map_cons, List.cons.injEq] at h1
      obtain ⟨l, hl, hl'⟩ := ih els (fun i hi y hy => hfit i hi y (by simp [hy])) (fun y hy => h2 y (by simp [hy])) h1.2
      obtain ⟨w, hw, hw'⟩ := readAs_package htq (h2 x (by simp)).1 (h2 x (by simp)).2 h1.1 fun i hi => hfit i hi x (by simp)
      exact ⟨w :: l, .cons hw hl, .cons hw' hl'⟩

/-- **C106, C14.** A program that imports `timequality` (and registers any `GenericSDID`s) and forwards a message it received sends the same bytes exactly if all the timeQuality
elements of the message are in their shortest form: with the facts that are true only, in the order of the RFC, and an accuracy that is positive, without sign and zeros in front. -/
theorem C106_same_bytes_iff (m : Message) (d : Tok.Delivered) (hr : IsReceived m d) (ht : m.timestamp.Valid)
    (els : List (Bytes × List (Bytes × Bytes))) (hels : MarshalsTo m.sd els) (reg : List SDID) (htq : tqSDID ∈ reg)
    (hfit : ∀ i ∈ reg, ∀ x ∈ els, Fits i (elementText x.1 x.2)) :
    ∃ w, d.msg.writable reg = .ret w ∧ (w.marshal = m.marshal ↔ NoOtherTq els) := by
  obtain ⟨ws, hws, hrd⟩ := package_reads m els hels reg htq hfit
  obtain ⟨k1, k2⟩ := all_rewritten hels hws
  refine ⟨⟨m.prio, m.timestamp.microseconds, m.hostname, m.appname, m.procid, m.msgid, ws, m.message⟩, ?_, ?_⟩
  · unfold MsgImm.writable
    rw [hr.priority, hr.timeStamp, hr.hostname, hr.appName, hr.procID, hr.msgID, C99_registered m d hr reg ws hrd, hr.text]
    rfl
  · constructor
    · intro e
      by_cases hne : m.sd = []
      · have : els = [] := by
          have := hels.1
          rw [hne] at this
          cases els with
          | nil => rfl
          | cons => simp at this
        subst this
        exact fun x hx => by simp at hx
      · refine k1.mp ?_
        rw [marshal_eq m _ (hels.list hne)] at e
        have hlen : ws.length ≠ 0 := by
          intro h0
          have := each_length hws
          rw [h0] at this
          exact hne (List.length_eq_zero_iff.mp this.symm)
        have hml : ∀ x : Message, x.marshal = (Res.bind (sdListMarshal x.sd) fun sd => .ret (.ok (headerText (wireFields x) ++ sd ++ (if x.message = [] then [] else SP :: x.message)))) := by
          intro x
          unfold Message.marshal
          simp only
          congr 1
          funext sd
          split <;> simp [headerText, wireFields]
        rw [hml] at e
        obtain ⟨sdb, hs, e⟩ := bind_ok_inv e
        simp only [sdListMarshal, if_neg hlen] at hs
        rw [hs]
        simp only [Out.ret.injEq, Except.ok.injEq] at e ⊢
        have hwf : wireFields (⟨m.prio, m.timestamp.microseconds, m.hostname, m.appname, m.procid, m.msgid, ws, m.message⟩ : Message) = wireFields m := by
          simp only [wireFields]
          rw [show m.timestamp.microseconds.format = m.timestamp.format from Time.format_trunc ht.nsec]
        rw [hwf] at e
        exact List.append_cancel_left (List.append_cancel_right e)
    · intro h
      exact (hop_same (m := m) (w := ⟨m.prio, m.timestamp.microseconds, m.hostname, m.appname, m.procid, m.msgid, ws, m.message⟩) ht rfl rfl rfl rfl rfl rfl (k2 h) rfl).1

/-- **C106.** These are the messages that such a program reproduces. -/
theorem C106_reproduces_iff (m : Message) (els : List (Bytes × List (Bytes × Bytes))) (hels : MarshalsTo m.sd els) (reg : List SDID) (htq : tqSDID ∈ reg)
    (hfit : ∀ i ∈ reg, ∀ x ∈ els, Fits i (elementText x.1 x.2)) : Reproduces reg m ↔ NoOtherTq els := by
  obtain ⟨ws, hws, hrd⟩ := package_reads m els hels reg htq hfit
  obtain ⟨k1, k2⟩ := all_rewritten hels hws
  constructor
  · intro h
    have hmap : ws.map SD.marshal = m.sd.map SD.marshal := by
      clear hels hws k1 k2
      have h : ∀ v ∈ m.sd, ∃ w, ReadAs reg v w ∧ w.marshal = v.marshal := h
      revert h
      generalize m.sd = sd at hrd
      intro h
      induction hrd with
      | nil => rfl
      | cons a _ ih =>
        obtain ⟨w', g1, g2⟩ := h _ (List.mem_cons_self ..)
        have e := readAs_det rfl a g1
        subst e
        simp only [List.map_cons, List.cons.injEq]
        exact ⟨g2, ih fun v hv => h v (by simp [hv])⟩
    refine k1.mp ?_
    have : ∀ (ws : List SD) (bs : List Bytes), ws.map SD.marshal = bs.map (fun b => .ret (.ok b)) → encodeAll SD.marshal ws = .ret (.ok bs.flatten) := by
      intro ws
      induction ws with
      | nil => intro bs hb; cases bs with
        | nil => rfl
        | cons => simp at hb
      | cons w ws ih => intro bs hb; cases bs with
        | nil => simp at hb
        | cons b bs =>
          simp only [List.map_cons, List.cons.injEq] at hb
          rw [encodeAll, hb.1, ih bs hb.2]
          rfl
    exact this ws _ (by rw [hmap, hels.1, List.map_map]; rfl)
  · intro h
    have hmap := k2 h
    show ∀ v ∈ m.sd, ∃ w, ReadAs reg v w ∧ w.marshal = v.marshal
    clear hels hws k1 k2
    revert hmap
    generalize m.sd = sd at hrd
    intro hmap
    induction hrd with
    | nil => simp
    | @cons v w _ _ a _ ih =>
      simp only [List.map_cons, List.cons.injEq] at hmap
      intro x hx
      rcases List.mem_cons.mp hx with rfl | hx
      · exact ⟨w, a, hmap.1⟩
      · exact ih hmap.2 x hx

/-- **C14**, exactly, with `timequality` imported: `Parse`, `Writable`, `Marshal5424` give the same bytes back for a frame of a message exactly if all its timeQuality elements are in their
shortest form. -/
theorem C14_timequality_iff (m : Message) (h : Intact m) (els : List (Bytes × List (Bytes × Bytes))) (hels : MarshalsTo m.sd els)
    (reg : List SDID) (htq : tqSDID ∈ reg) (hfit : ∀ i ∈ reg, ∀ x ∈ els, Fits i (elementText x.1 x.2)) (suffix spare : Bytes) (atEOF : Bool) :
    ∃ b, m.marshal = .ret (.ok b) ∧ (b.length < 2 ^ 62 →
      ∃ p w, parse (some ⟨Transport.rfc5425.encode b ++ suffix, spare⟩) (some .rfc5425) atEOF = .ret (p, some ⟨suffix, spare⟩, none) ∧
        p.writable reg = .ret w ∧ (w.marshal = .ret (.ok b) ↔ NoOtherTq els)) := by
  obtain ⟨b, els', hb, hels', hf, h20⟩ := transmissible_frame h
  refine ⟨b, hb, fun hlen => ?_⟩
  obtain ⟨p, e, g1, g2⟩ := parse_5425_conveys b suffix spare atEOF hlen (by simp only [List.length_append]; omega)
  have := (g2.message hf).1
  subst this
  obtain ⟨w, k1, k2⟩ := C106_same_bytes_iff m ⟨0, p, none⟩ (conveys_isReceived h hb (d := ⟨0, p, none⟩) g2) h.time els hels reg htq hfit
  exact ⟨p, w, g1, k1, by rw [hb] at k2; exact k2⟩

/-- Examples. -/
example : NoOtherTq [(b!"x@1", [(b!"a", b!"1")]), (b!"timeQuality", [(b!"tzKnown", b!"1"), (b!"isSynced", b!"1"), (b!"syncAccuracy", b!"17")])] := by
  intro x hx h
  simp only [List.mem_cons, List.not_mem_nil, or_false] at hx
  rcases hx with rfl | rfl
  · obtain ⟨t, ht⟩ := h
    have := tqText_id (wellFormed_of_names (by decide +kernel) (by
      intro p hp
      simp only [List.mem_singleton] at hp
      subst hp
      exact ⟨by decide +kernel, .byte (by decide) (by decide) (by decide) .nil⟩)) ht
    exact absurd this (by decide)
  · exact .inr (.inr ⟨17, b!"17", by decide, by decide, ⟨by decide, by decide +kernel, by decide +kernel, by decide⟩, rfl⟩)

/-- Two flags in the other order are read, and written in the order of the RFC. -/
example : ¬ NoOtherTq [(b!"timeQuality", [(b!"isSynced", b!"1"), (b!"tzKnown", b!"1")])] := by
  intro h
  have ht : ∃ t, IsTqText (elementText b!"timeQuality" [(b!"isSynced", b!"1"), (b!"tzKnown", b!"1")]) t := by
    have : tqFound ⟨elementText b!"timeQuality" [(b!"isSynced", b!"1"), (b!"tzKnown", b!"1")], []⟩ = .ret (some (.tq ⟨true, true, none⟩)) := rfl
    obtain ⟨t, ht, _⟩ := (tqFound_reads _ _ _).mp this
    exact ⟨t, ht⟩
  rcases h _ (List.mem_singleton.mpr rfl) ht with h | h | ⟨n, ds, _, _, _, h⟩
  · simp at h
  · simp at h
  · simp at h

end Syslog5424
