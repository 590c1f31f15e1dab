import Verif.Spec.Gram
import Verif.Props.EndToEndMany
/-! # C74: messages in datagrams -/
namespace Syslog5424
open Spec

/-- `Parse` on a datagram that is the frame of a message: the message, and no rest. -/
theorem parse_datagram {t : Transport} {m : Message} (h : FitsDatagram t m) {f : Bytes} (hf : IsFrame t m f) :
    f ≠ [] ∧ f.length ≤ 500 ∧ ∀ spare, ∃ p, parse (some ⟨f, spare⟩) (some t) false = .ret (p, some ⟨[], spare⟩, none) ∧
      ∀ n, IsReceived m ⟨n, p, none⟩ := by
  obtain ⟨b, hb, rfl⟩ := hf
  obtain ⟨b', els, hb', hels, hfr, h20⟩ := transmissible_frame h.toIntact
  rw [hb] at hb'
  simp only [Out.ret.injEq, Except.ok.injEq] at hb'
  subst hb'
  have hsz := h.size b hb
  have term : ∀ z, t.term = some z → Terminator t z → t.encode b = b ++ [z] →
      t.encode b ≠ [] ∧ (t.encode b).length ≤ 500 ∧ ∀ spare, ∃ p, parse (some ⟨t.encode b, spare⟩) (some t) false =
        .ret (p, some ⟨[], spare⟩, none) ∧ ∀ n, IsReceived m ⟨n, p, none⟩ := by
    intro z hz hT he
    obtain ⟨hne, hz2⟩ := h.ended z hT
    refine ⟨by rw [he]; simp, hsz, fun spare => ?_⟩
    have hz93 : z ≠ 93 := by cases t <;> simp [Terminator] at hT <;> subst hT <;> decide
    obtain ⟨sd, _, hsd, _⟩ := C25_message_ok m b hb
    obtain ⟨b2, idx, txt, hb2, hL⟩ := layout_msg (m := { m with message := m.message ++ [z] })
      ⟨h.header.prio, h.header.host, h.header.app, h.header.pid, h.header.mid⟩ (xs := els) hels
      (fun h1 _ => quiet_text (freeText_snoc (h.text h1) hz93))
    have e1 := marshal_eq m sd hsd
    have e2 := marshal_eq { m with message := m.message ++ [z] } sd hsd
    rw [hb, if_neg hne] at e1
    rw [hb2, if_neg (by simp)] at e2
    simp only [Out.ret.injEq, Except.ok.injEq] at e1 e2
    have e3 : b2 = b ++ [z] := by rw [e1, e2]; simp [wireFields]
    subst e3
    rw [if_neg (by simp)] at hL
    obtain ⟨pre, g1, g2, g3⟩ := parse_term_frame hz ⟨b ++ [z], spare⟩ false (y := SP) (p := m.message) (q := []) hL hz2
    rw [he]
    refine ⟨_, g3, fun n => ?_⟩
    obtain ⟨pri, ts, host, app, pid, mid, hw, hr⟩ := g2.readsAs
    refine isReceived_of h.toIntact hels rfl ?_ (d := ⟨n, _, none⟩) hw hr rfl (fun reg f hf => g2.elements rfl reg f hf)
    rw [hb]
    have g4 : b ++ [z] = (pre ++ SP :: m.message) ++ [z] := by simp only at g1; rw [g1]; simp
    have := List.append_cancel_right g4
    simp only [MsgImm.string]
    rw [this]
  cases t with
  | lfEnded => exact term 10 rfl rfl rfl
  | zeroEnded => exact term 0 rfl rfl rfl
  | rfc5425 =>
    refine ⟨by intro e; rw [e] at h20; simp at h20, hsz, fun spare => ?_⟩
    have hp : b.length < 2 ^ 62 := by
      have : b.length ≤ (Transport.rfc5425.encode b).length := by simp [Transport.encode]; omega
      omega
    obtain ⟨p, e, g1, g2⟩ := parse_5425_conveys b [] spare false hp (by simpa using h20)
    rw [List.append_nil] at g1
    have := (g2.message hfr).1
    subst this
    exact ⟨p, g1, fun n => conveys_isReceived h.toIntact hb (d := ⟨n, p, none⟩) g2⟩

/-- The state of `tokenize` between two datagrams. -/
structure AtRest (s : Tok.State) : Prop extends Tok.Mem s where
  rest : s.done = 0

theorem atRest_init : AtRest Tok.init := ⟨Tok.mem_init, rfl⟩

theorem AtRest.room {s : Tok.State} (h : AtRest s) : 500 ≤ s.room := by
  have := h.size; have := h.fit; have := h.big; have := h.rest
  unfold Tok.State.room; omega

theorem advance_fields (s : Tok.State) (n d : Nat) (out : List Tok.Delivered) :
    (Tok.advance s n d out).done = d ∧ (Tok.advance s n d out).out = out ∧ (Tok.advance s n d out).errs = s.errs := by
  unfold Tok.advance; simp only; split <;> exact ⟨rfl, rfl, rfl⟩

/-- A datagram that is the frame of a message, read at once: one message is delivered. -/
theorem step_datagram {t : Transport} {s : Tok.State} (hs : AtRest s) {m : Message} (h : FitsDatagram t m) {f : Bytes}
    (hf : IsFrame t m f) : ∃ s' d, Tok.step t s { data := f } = .ret (true, s') ∧ AtRest s' ∧ s'.out = s.out ++ [d] ∧
      IsReceived m d ∧ s'.errs = s.errs := by
  obtain ⟨h1, h2, h3⟩ := parse_datagram h hf
  have hfit : Tok.Read.Fits { data := f } s := by
    have := hs.room; simp only [Tok.Read.Fits, List.length_nil]; omega
  obtain ⟨arr, spare, errs, ha, hb, hstep⟩ := step_eq (t := t) hs.toMem hfit h1
  have hp : s.pending = [] := by unfold Tok.State.pending; rw [hs.rest]; simp
  rw [hp, List.nil_append] at hstep
  obtain ⟨p, g1, g2⟩ := h3 spare
  have hloop : Tok.parseLoop t (decide (({ data := f } : Tok.Read).err = .eof)) (f.length + 1) ⟨f, spare⟩ [] =
      .ret (⟨[], spare⟩, [(p, none)]) := by
    unfold Tok.parseLoop
    show (parse (some ⟨f, spare⟩) (some t) false >>= _) = _
    rw [g1]
    rfl
  simp only [hloop, Out.ret_bind] at hstep
  have hmem := Tok.step_mem hs.toMem hfit hstep
  have herr := Tok.step_errs hstep
  obtain ⟨a1, a2, _⟩ := advance_fields { s with arr := arr, errs := errs } (f.length + s.done) 0
    (s.out ++ [⟨s.old.length, p, none⟩])
  exact ⟨_, _, hstep, ⟨hmem.1, a1⟩, a2, g2 _, by rw [herr]; simp⟩

/-- An error of the system. -/
theorem step_error {t : Transport} {s : Tok.State} (hs : AtRest s) :
    ∃ s', Tok.step t s { data := [], err := .other } = .ret (true, s') ∧ AtRest s' ∧ s'.out = s.out ∧ s'.errs = s.errs + 1 := by
  have hfit : Tok.Read.Fits { data := [], err := .other } s := by simp [Tok.Read.Fits]
  have hst : ∃ s', Tok.step t s { data := [], err := .other } = .ret (true, s') ∧ s'.done = s.done ∧ s'.out = s.out ∧ s'.errs = s.errs + 1 := by
    refine ⟨_, rfl, rfl, rfl, rfl⟩
  obtain ⟨s', g1, g2, g3, g4⟩ := hst
  exact ⟨s', g1, ⟨(Tok.step_mem hs.toMem hfit g1).1, by rw [g2, hs.rest]⟩, g3, g4⟩

theorem fakeRead_datagram {n : Nat} {d : Bytes} (h : d.length ≤ 500) (hn : 500 ≤ n) : Net.fakeRead [] n (.datagram d) = (d, false, []) := by
  unfold Net.fakeRead
  have : d.take 65536 = d := List.take_of_length_le (by omega)
  simp only [List.length_nil, if_true, this]
  split
  · have : d.length = n := by omega
    rw [← this]; simp
  · rfl

/-- What `tokenize` does on a socket, from a state between two datagrams. -/
theorem gramLoop_frames (t : Transport) : ∀ (n : Nat) (q : List Net.Recv) (ms : List Message) (s : Tok.State), AtRest s →
    (∀ m ∈ ms, FitsDatagram t m) → Each (IsFrame t) ms (datagrams q) →
    ∃ s' ds, Datagram.gramLoop t n s [] q = .ret (s', [], q.drop n, (q.take n).map fun r => Datagram.asRead (Net.fakeRead [] 500 r)) ∧
      AtRest s' ∧ s'.out = s.out ++ ds ∧ Each IsReceived (ms.take (datagrams (q.take n)).length) ds ∧
      s'.errs = s.errs + recvErrors (q.take n) := by
  intro n
  induction n with
  | zero => intro q ms s hs _ _; exact ⟨s, [], rfl, hs, by simp, .nil, rfl⟩
  | succ n ih =>
    intro q ms s hs hfit hq
    cases q with
    | nil => exact ⟨s, [], rfl, hs, by simp, by simp [datagrams]; exact .nil, rfl⟩
    | cons r q =>
      cases r with
      | error =>
        obtain ⟨s1, g1, g2, g3, g4⟩ := step_error (t := t) hs
        obtain ⟨s', ds, k1, k2, k3, k4, k5⟩ := ih q ms s1 g2 hfit hq
        have hx : Net.fakeRead [] s.room .error = ([], true, []) := rfl
        refine ⟨s', ds, ?_, k2, by rw [k3, g3], k4, ?_⟩
        · unfold Datagram.gramLoop
          simp only [List.length_nil, if_true, hx, Datagram.asRead]
          rw [g1]
          simp only [Out.ret_bind]
          rw [k1]
          rfl
        · rw [k5, g4]; simp [recvErrors]; omega
      | datagram d =>
        cases ms with
        | nil => simp only [datagrams, List.filterMap_cons] at hq; cases hq
        | cons m ms =>
          simp only [datagrams, List.filterMap_cons] at hq
          cases hq with
          | cons hm hq =>
          obtain ⟨_, hd, _⟩ := parse_datagram (hfit m (by simp)) hm
          obtain ⟨s1, x, g1, g2, g3, g4, g5⟩ := step_datagram hs (hfit m (by simp)) hm
          obtain ⟨s', ds, k1, k2, k3, k4, k5⟩ := ih q ms s1 g2 (fun m hm => hfit m (by simp [hm])) hq
          refine ⟨s', x :: ds, ?_, k2, by rw [k3, g3]; simp, ?_, ?_⟩
          · unfold Datagram.gramLoop
            simp only [List.length_nil, if_true, fakeRead_datagram hd hs.room, Datagram.asRead]
            show (Tok.step t s { data := d } >>= _) = _
            rw [g1]
            simp only [Out.ret_bind]
            rw [k1]
            simp [fakeRead_datagram hd (Nat.le_refl _), Datagram.asRead]
          · simpa [datagrams] using Each.cons g4 k4
          · rw [k5, g5]; simp [recvErrors]

/-- **C74.** A socket that gives datagrams, each of them one message with the framing of the transport, of at most 500
bytes, and errors, in any order: every iteration of the read loop takes one of them; the messages that `tokenize` sends on
are those of the datagrams it took, in order, each exactly once, with all their fields and no error; the errors are
reported, one each; nothing panics. -/
theorem C74_each_datagram_partial (t : Transport) (ms : List Message) (hms : ∀ m ∈ ms, FitsDatagram t m) (q : List Net.Recv)
    (hq : Each (IsFrame t) ms (datagrams q)) (n : Nat) :
    ∃ s rs, Datagram.gramLoop t n Tok.init [] q = .ret (s, [], q.drop n, rs) ∧
      Each IsReceived (ms.take (datagrams (q.take n)).length) s.out ∧ s.errs = recvErrors (q.take n) := by
  obtain ⟨s, ds, h1, _, h3, h4, h5⟩ := gramLoop_frames t n q ms Tok.init atRest_init hms hq
  have : s.out = ds := by rw [h3]; rfl
  exact ⟨s, _, h1, by rw [this]; exact h4, by rw [h5]; simp [Tok.init]⟩

theorem asRead_err (x : Bytes × Bool × Bytes) : (Datagram.asRead x).err ≠ .eof := by
  unfold Datagram.asRead; simp only; split <;> simp

theorem asRead_fits (buff : Bytes) (s : Tok.State) (r : Net.Recv) : (Datagram.asRead (Net.fakeRead buff s.room r)).Fits s := by
  have go : ∀ b : Bytes, (if s.room ≤ b.length then (b.take s.room, false, b.drop s.room) else (b, false, ([] : Bytes))).1.length ≤ s.room := by
    intro b; split
    · rw [List.length_take]; omega
    · simp only; omega
  unfold Datagram.asRead Net.fakeRead
  simp only [Tok.Read.Fits, List.length_nil, Nat.add_zero]
  split
  · split
    · simp
    · exact go _
  · exact go _

theorem step_goes_on {t : Transport} {s s' : Tok.State} {r : Tok.Read} {b : Bool} (he : r.err ≠ .eof) (h : Tok.step t s r = .ret (b, s')) : b = true := by
  unfold Tok.step at h
  simp only [he, decide_false, Bool.false_eq_true, and_false, if_false] at h
  split at h
  · simp only [Out.ret.injEq, Prod.mk.injEq] at h; exact h.1.symm
  · generalize (Slice.exact _).sub _ _ = x at h
    cases x with
    | ret d =>
      simp only [Out.ret_bind] at h
      generalize Tok.parseLoop _ _ _ _ _ = y at h
      cases y with
      | ret d =>
        simp only [Out.ret_bind] at h
        have h : Out.ret (true, _) = Out.ret (b, s') := h
        simp only [Out.ret.injEq, Prod.mk.injEq] at h; exact h.1.symm
      | panic => simp at h
      | hang => simp at h
    | panic => simp at h
    | hang => simp at h

/-- The calls of `Read` of `gramLoop` are a run of `tokenize`. -/
theorem gramLoop_run {t : Transport} : ∀ {n : Nat} {s : Tok.State} {buff : Bytes} {q : List Net.Recv} {s' : Tok.State} {buff' : Bytes}
    {q' : List Net.Recv} {rs : List Tok.Read}, Datagram.gramLoop t n s buff q = .ret (s', buff', q', rs) →
    Tok.Run t s rs (.ret (true, s')) ∧ ∀ x ∈ rs, x.err ≠ .eof := by
  intro n
  induction n with
  | zero =>
    intro s buff q s' buff' q' rs h
    simp only [Datagram.gramLoop, Out.ret.injEq, Prod.mk.injEq] at h
    obtain ⟨rfl, _, _, rfl⟩ := h
    exact ⟨.nil, by simp⟩
  | succ n ih =>
    have one : ∀ {s : Tok.State} {buff : Bytes} {q : List Net.Recv} {s' : Tok.State} {buff' : Bytes} {q' : List Net.Recv} {rs : List Tok.Read}
        (r : Net.Recv), ((do
          let (_, s1) ← Tok.step t s (Datagram.asRead (Net.fakeRead buff s.room r))
          let (s2, b2, q2, r2) ← Datagram.gramLoop t n s1 (Net.fakeRead buff s.room r).2.2 q
          return (s2, b2, q2, Datagram.asRead (Net.fakeRead buff s.room r) :: r2)) : Out _) = .ret (s', buff', q', rs) →
        Tok.Run t s rs (.ret (true, s')) ∧ ∀ x ∈ rs, x.err ≠ .eof := by
      intro s buff q s' buff' q' rs r h
      cases hst : Tok.step t s (Datagram.asRead (Net.fakeRead buff s.room r)) with
      | ret p =>
        obtain ⟨b, s1⟩ := p
        rw [hst] at h
        simp only [Out.ret_bind] at h
        have hb := step_goes_on (asRead_err _) hst
        subst hb
        cases hg : Datagram.gramLoop t n s1 (Net.fakeRead buff s.room r).2.2 q with
        | ret p =>
          obtain ⟨s2, b2, q2, r2⟩ := p
          rw [hg] at h
          have h : Out.ret (s2, b2, q2, Datagram.asRead (Net.fakeRead buff s.room r) :: r2) = Out.ret (s', buff', q', rs) := h
          simp only [Out.ret.injEq, Prod.mk.injEq] at h
          obtain ⟨rfl, _, _, rfl⟩ := h
          refine ⟨.cons (asRead_fits _ _ _) hst (ih hg).1, fun x hx => ?_⟩
          rcases List.mem_cons.mp hx with rfl | hx
          · exact asRead_err _
          · exact (ih hg).2 x hx
        | panic => rw [hg] at h; simp at h
        | hang => rw [hg] at h; simp at h
      | panic => rw [hst] at h; simp at h
      | hang => rw [hst] at h; simp at h
    intro s buff q s' buff' q' rs h
    unfold Datagram.gramLoop at h
    split at h
    · cases q with
      | nil =>
        simp only [Out.ret.injEq, Prod.mk.injEq] at h
        obtain ⟨rfl, _, _, rfl⟩ := h
        exact ⟨.nil, by simp⟩
      | cons r q => exact one r h
    · exact one .error h

theorem run_det {t : Transport} {s : Tok.State} {rs : List Tok.Read} {o o' : Out (Bool × Tok.State)} (h : Tok.Run t s rs o) (h' : Tok.Run t s rs o') : o = o' := by
  induction h with
  | nil => cases h'; rfl
  | cons hf hs _ ih =>
    cases h' with
    | cons _ hs' h' =>
      rw [hs] at hs'
      simp only [Out.ret.injEq, Prod.mk.injEq, true_and] at hs'
      subst hs'
      exact ih h'
    | last _ hs' hn => rw [hs] at hs'; exact absurd hs'.symm (hn _)
  | last hf hs hn =>
    cases h' with
    | cons _ hs' h' => rw [hs] at hs'; exact absurd hs' (hn _)
    | last _ hs' _ => rw [← hs, hs']

/-- Merging: what comes from every sender is known, and so is the order in which the senders come. -/
theorem merge {α β : Type} (F : α → β) : ∀ (ds : List (Nat × β)) (g : Nat → List α), (∀ j, fromSender j ds = (g j).map F) →
    ∃ ts : List (Nat × α), ts.map (·.1) = ds.map (·.1) ∧ ts.map (fun x => F x.2) = ds.map (·.2) ∧ ∀ j, fromSender j ts = g j := by
  intro ds
  induction ds with
  | nil =>
    intro g h
    refine ⟨[], rfl, rfl, fun j => ?_⟩
    have := h j
    simp only [fromSender, List.filterMap_nil] at this ⊢
    exact (List.map_eq_nil_iff.mp this.symm).symm
  | cons x ds ih =>
    intro g h
    obtain ⟨a, b⟩ := x
    have ha := h a
    simp only [fromSender, List.filterMap_cons, if_true] at ha
    cases hga : g a with
    | nil => rw [hga] at ha; simp at ha
    | cons m rest =>
      rw [hga] at ha
      simp only [List.map_cons, List.cons.injEq] at ha
      obtain ⟨ts, h1, h2, h3⟩ := ih (fun j => if j = a then rest else g j) (fun j => by
        by_cases hj : j = a
        · subst hj; simp only [if_true]; exact ha.2
        · have := h j
          simp only [fromSender, List.filterMap_cons, if_neg (Ne.symm hj)] at this
          simp only [if_neg hj]; exact this)
      refine ⟨(a, m) :: ts, by simp [h1], by simp [h2, ha.1], fun j => ?_⟩
      have := h3 j
      by_cases hj : j = a
      · subst hj
        simp only [if_true] at this
        simp only [fromSender, List.filterMap_cons, if_true, hga]
        rw [← this]; rfl
      · simp only [if_neg hj] at this
        simp only [fromSender, List.filterMap_cons, if_neg (Ne.symm hj)]
        exact this

theorem fromSender_mem {α : Type} {j : Nat} {l : List (Nat × α)} {a : α} : a ∈ fromSender j l ↔ (j, a) ∈ l := by
  simp only [fromSender, List.mem_filterMap]
  constructor
  · rintro ⟨⟨i, x⟩, h1, h2⟩
    simp only [Option.ite_none_right_eq_some, Option.some.injEq] at h2
    obtain ⟨rfl, rfl⟩ := h2
    exact h1
  · intro h
    exact ⟨(j, a), h, by simp⟩

theorem each_isFrame {t : Transport} {ms : List Message} (h : ∀ m ∈ ms, FitsDatagram t m) : Each (IsFrame t) ms (ms.map (frameOf t)) := by
  induction ms with
  | nil => exact .nil
  | cons m ms ih =>
    obtain ⟨b, _, hb, _⟩ := transmissible_frame (h m (by simp)).toIntact
    exact .cons ⟨b, hb, by simp [frameOf, hb]⟩ (ih fun x hx => h x (by simp [hx]))

/-- **C74.** Any number of senders, each with any history and any number of connections, to one datagram socket that a
receiver reads: at every moment what `Receive` has returned are messages that were sent, each exactly once, with all their
fields and no error, in the order in which the datagrams came; those of one sender are in the order in which it sent them,
and one is missing only if the network lost its datagram. -/
theorem C74_received_partial (t : Transport) (senders : List (List Sender.Event × Sender.State))
    (hs : ∀ x ∈ senders, History t x.1 x.2) (hclean : ∀ x ∈ senders, ∀ nb e, .write nb (some e) ∈ x.1 → nb = 0)
    (hmsgs : ∀ x ∈ senders, ∀ m ∈ sent x.1, FitsDatagram t m)
    (ds : List (Nat × Bytes)) (hfrom : ∀ d ∈ ds, d.1 < senders.length)
    (hnet : ∀ j x, senders[j]? = some x → (fromSender j ds).Sublist (packets x.2))
    (answers : List Net.Recv) (ha : datagrams answers = ds.map (·.2))
    (lenQueue : Nat) (er : List Recv.Event) (q : Recv.State) (hq : Recv.run t lenQueue Recv.init er = some q) (hcr : q.crashed = false)
    (i : Nat) (k : Recv.Conn) (hi : q.conns[i]? = some k)
    (n : Nat) (tok : Tok.State) (buff : Bytes) (rest : List Net.Recv)
    (hloop : Datagram.gramLoop t n Tok.init [] answers = .ret (tok, buff, rest, readsOf i er)) :
    ∃ ts : List (Nat × Message), ts.map (·.1) = ds.map (·.1) ∧
      (∀ j x, senders[j]? = some x → (fromSender j ts).Sublist (sent x.1)) ∧
      Each IsReceived ((ts.map (·.2)).take (ofConn i q.got).length) (ofConn i q.got) ∧
      (answers.length ≤ n → k.pending = [] → ofConn i q.pipeline = [] → (ofConn i q.got).length = ts.length) := by
  have hok : ∀ x ∈ senders, ∀ m ∈ sent x.1, ∃ b, m.marshal = .ret (.ok b) := fun x hx m hm => by
    obtain ⟨b, _, hb, _⟩ := transmissible_frame (hmsgs x hx m hm).toIntact
    exact ⟨b, hb⟩
  have hg : ∀ j, ∃ ms : List Message, fromSender j ds = ms.map (frameOf t) ∧
      (∀ x, senders[j]? = some x → ms.Sublist (sent x.1)) ∧ ∀ m ∈ ms, FitsDatagram t m := by
    intro j
    cases hj : senders[j]? with
    | none =>
      refine ⟨[], ?_, by simp, by simp⟩
      cases hd : fromSender j ds with
      | nil => rfl
      | cons a r =>
        exfalso
        have hm : a ∈ fromSender j ds := by rw [hd]; simp
        have := hfrom _ (fromSender_mem.mp hm)
        rw [List.getElem?_eq_none_iff] at hj
        simp only at this; omega
    | some x =>
      have hx := List.mem_of_getElem? hj
      obtain ⟨waiting, hw⟩ := C37_datagram_partial t x.1 x.2 (hs x hx) (hclean x hx)
      rw [frames_sent x.1 (hok x hx)] at hw
      have h1 : (fromSender j ds).Sublist ((sent x.1).map (frameOf t)) :=
        (hnet j x hj).trans (by rw [← hw]; exact List.sublist_append_left _ _)
      obtain ⟨ms, h2, h3⟩ := List.sublist_map_iff.mp h1
      refine ⟨ms, h3, ?_, fun m hm => hmsgs x hx m (h2.subset hm)⟩
      intro x' hx'
      simp only [Option.some.injEq] at hx'
      subst hx'; exact h2
  have hg' : ∃ g : Nat → List Message, ∀ j, fromSender j ds = (g j).map (frameOf t) ∧
      (∀ x, senders[j]? = some x → (g j).Sublist (sent x.1)) ∧ ∀ m ∈ g j, FitsDatagram t m :=
    ⟨fun j => (hg j).choose, fun j => (hg j).choose_spec⟩
  obtain ⟨g, hg⟩ := hg'
  obtain ⟨ts, h1, h2, h3⟩ := merge (frameOf t) ds g (fun j => (hg j).1)
  have hfits : ∀ m ∈ ts.map (·.2), FitsDatagram t m := by
    intro m hm
    obtain ⟨x, hx, rfl⟩ := List.mem_map.mp hm
    apply (hg x.1).2.2
    rw [← h3 x.1]
    exact fromSender_mem.mpr hx
  have hfr : Each (IsFrame t) (ts.map (·.2)) (datagrams answers) := by
    have := each_isFrame hfits
    rw [List.map_map] at this
    rw [ha, ← h2]
    exact this
  obtain ⟨s', rs, k1, k2, _⟩ := C74_each_datagram_partial t (ts.map (·.2)) hfits answers hfr n
  rw [hloop] at k1
  simp only [Out.ret.injEq, Prod.mk.injEq] at k1
  obtain ⟨rfl, _, _, rfl⟩ := k1
  obtain ⟨b, tok', g1, g2⟩ := C44_order _ _ er q hq hcr i k hi
  have := run_det g1 (gramLoop_run hloop).1
  simp only [Out.ret.injEq, Prod.mk.injEq] at this
  obtain ⟨_, rfl⟩ := this
  refine ⟨ts, h1, fun j x hj => by rw [h3 j]; exact (hg j).2.1 x hj, ?_, ?_⟩
  · rw [← g2, List.append_assoc] at k2
    have e := each_length k2
    have := each_prefix k2
    rw [List.take_take] at this
    simp only [List.length_append, List.length_take] at e
    rwa [Nat.min_eq_left (by omega)] at this
  · intro hall hp hpipe
    rw [hp, hpipe, List.append_nil, List.append_nil] at g2
    have e := each_length k2
    rw [List.take_of_length_le hall, ha, List.length_take, List.length_map, List.length_map] at e
    have e1 := congrArg List.length h1
    simp only [List.length_map] at e1
    rw [g2, e]; omega

theorem fakeRead_split (buff : Bytes) (n : Nat) (r : Net.Recv) (h : ∀ d, r = .datagram d → d.length ≤ 65536) :
    (Net.fakeRead buff n r).1 ++ (Net.fakeRead buff n r).2.2 = if buff.length = 0 then (datagrams [r]).flatten else buff := by
  have go : ∀ b : Bytes, (if n ≤ b.length then (b.take n, false, b.drop n) else (b, false, ([] : Bytes))).1 ++
      (if n ≤ b.length then (b.take n, false, b.drop n) else (b, false, ([] : Bytes))).2.2 = b := by
    intro b; split <;> simp
  unfold Net.fakeRead
  simp only
  split
  · next h0 =>
    cases r with
    | error => simp [datagrams, List.length_eq_zero_iff.mp h0]
    | datagram d =>
      simp only [go, datagrams, List.filterMap_cons, List.filterMap_nil, List.flatten_cons, List.flatten_nil, List.append_nil]
      exact List.take_of_length_le (h d rfl)
  · exact go _

/-- No byte is lost between the datagrams and `tokenize`. -/
theorem gramLoop_bytes {t : Transport} : ∀ {n : Nat} {s : Tok.State} {buff : Bytes} {q : List Net.Recv} {s' : Tok.State} {buff' : Bytes}
    {q' : List Net.Recv} {rs : List Tok.Read}, (∀ d ∈ datagrams q, d.length ≤ 65536) →
    Datagram.gramLoop t n s buff q = .ret (s', buff', q', rs) →
    arrived rs ++ buff' ++ (datagrams q').flatten = buff ++ (datagrams q).flatten := by
  intro n
  induction n with
  | zero =>
    intro s buff q s' buff' q' rs _ h
    simp only [Datagram.gramLoop, Out.ret.injEq, Prod.mk.injEq] at h
    obtain ⟨_, rfl, rfl, rfl⟩ := h
    simp [arrived]
  | succ n ih =>
    have one : ∀ {s : Tok.State} {buff : Bytes} {q : List Net.Recv} {s' : Tok.State} {buff' : Bytes} {q' : List Net.Recv} {rs : List Tok.Read}
        (r : Net.Recv), (∀ d ∈ datagrams q, d.length ≤ 65536) → ((do
          let (_, s1) ← Tok.step t s (Datagram.asRead (Net.fakeRead buff s.room r))
          let (s2, b2, q2, r2) ← Datagram.gramLoop t n s1 (Net.fakeRead buff s.room r).2.2 q
          return (s2, b2, q2, Datagram.asRead (Net.fakeRead buff s.room r) :: r2)) : Out _) = .ret (s', buff', q', rs) →
        arrived rs ++ buff' ++ (datagrams q').flatten =
          (Net.fakeRead buff s.room r).1 ++ (Net.fakeRead buff s.room r).2.2 ++ (datagrams q).flatten := by
      intro s buff q s' buff' q' rs r hq h
      cases hst : Tok.step t s (Datagram.asRead (Net.fakeRead buff s.room r)) with
      | ret p =>
        obtain ⟨b, s1⟩ := p
        rw [hst] at h
        simp only [Out.ret_bind] at h
        cases hg : Datagram.gramLoop t n s1 (Net.fakeRead buff s.room r).2.2 q with
        | ret p =>
          obtain ⟨s2, b2, q2, r2⟩ := p
          rw [hg] at h
          have h : Out.ret (s2, b2, q2, Datagram.asRead (Net.fakeRead buff s.room r) :: r2) = Out.ret (s', buff', q', rs) := h
          simp only [Out.ret.injEq, Prod.mk.injEq] at h
          obtain ⟨_, rfl, rfl, rfl⟩ := h
          have := ih hq hg
          simp only [List.append_assoc] at this ⊢
          rw [← this]
          simp [arrived, Datagram.asRead]
        | panic => rw [hg] at h; simp at h
        | hang => rw [hg] at h; simp at h
      | panic => rw [hst] at h; simp at h
      | hang => rw [hst] at h; simp at h
    intro s buff q s' buff' q' rs hq h
    unfold Datagram.gramLoop at h
    split at h
    · next h0 =>
      have hb : buff = [] := List.length_eq_zero_iff.mp h0
      cases q with
      | nil =>
        simp only [Out.ret.injEq, Prod.mk.injEq] at h
        obtain ⟨_, rfl, rfl, rfl⟩ := h
        simp [arrived]
      | cons r q =>
        have hsplit : datagrams (r :: q) = datagrams [r] ++ datagrams q := by
          unfold datagrams; rw [← List.filterMap_append]; rfl
        rw [one r (fun d hd => hq d (by rw [hsplit]; simp [hd])) h,
          fakeRead_split _ _ _ (fun d hd => hq d (by rw [hsplit]; simp [hd, datagrams])), if_pos h0, hb, hsplit]
        simp
    · next h0 => rw [one .error hq h, fakeRead_split _ _ _ (by simp), if_neg h0]

theorem any_size {t : Transport} {Good : Message → Prop} (hcar : Carries t Good)
    {ms : List Message} (hms : ∀ m ∈ ms, Good m) {q : List Net.Recv}
    (hq : Each (IsFrame t) ms (datagrams q)) (hsize : ∀ d ∈ datagrams q, d.length ≤ 65536)
    {n : Nat} {s : Tok.State} {buff : Bytes} {rest : List Net.Recv} {rs : List Tok.Read}
    (h : Datagram.gramLoop t n Tok.init [] q = .ret (s, buff, rest, rs)) : Each IsReceived (ms.take s.out.length) s.out := by
  have hb := gramLoop_bytes hsize h
  have hf : datagrams q = ms.map (frameOf t) := by
    clear hb h hsize hms
    generalize datagrams q = l at hq
    induction hq with
    | nil => rfl
    | cons hr _ ih =>
      obtain ⟨b, hb, rfl⟩ := hr
      rw [ih, List.map_cons, frameOf, hb]
  refine (hcar.back ms hms rs true s (gramLoop_run h).1 ⟨buff ++ (datagrams rest).flatten, ?_⟩).1
  rw [← hf, ← List.append_assoc, hb]; rfl

/-- **C74.** Datagrams of any size up to 64 KiB, each of them one message with the framing of RFC 5425: as long as nothing
panics, what `tokenize` sends on are the messages of the datagrams, from the first one on, in order, each exactly once,
with all their fields and no error. (It may stop before the last one: `C74_stall_violated`.) -/
theorem C74_any_size_partial (ms : List Message) (hms : ∀ m ∈ ms, Transmissible m) (q : List Net.Recv)
    (hq : Each (IsFrame .rfc5425) ms (datagrams q)) (hsize : ∀ d ∈ datagrams q, d.length ≤ 65536)
    (n : Nat) (s : Tok.State) (buff : Bytes) (rest : List Net.Recv) (rs : List Tok.Read)
    (h : Datagram.gramLoop .rfc5425 n Tok.init [] q = .ret (s, buff, rest, rs)) :
    Each IsReceived (ms.take s.out.length) s.out := any_size carries_5425 hms hq hsize h

/-- **C74.** The same for messages without structured data that end with LF or NUL. -/
theorem C74_any_size_lines_partial (t : Transport) (z : UInt8) (ht : t = .lfEnded ∧ z = 10 ∨ t = .zeroEnded ∧ z = 0)
    (ms : List Message) (hms : ∀ m ∈ ms, TransmissibleLine z m) (q : List Net.Recv)
    (hq : Each (IsFrame t) ms (datagrams q)) (hsize : ∀ d ∈ datagrams q, d.length ≤ 65536)
    (n : Nat) (s : Tok.State) (buff : Bytes) (rest : List Net.Recv) (rs : List Tok.Read)
    (h : Datagram.gramLoop t n Tok.init [] q = .ret (s, buff, rest, rs)) :
    Each IsReceived (ms.take s.out.length) s.out := any_size (carries_lines ht) hms hq hsize h

/-- C74 is violated for larger messages: two datagrams of less than 64 KiB with RFC 5425 frames can stop a socket for ever.
When the first frame leaves at least 500 bytes in the buffer of `tokenize`, but less than the second one needs, the
buffer gets full: the loop spins, takes no datagram any more and delivers nothing. -/
theorem C74_stall_violated (p1 p2 : Bytes) (h20 : 20 ≤ (Transport.rfc5425.encode p1).length)
    (h1 : (Transport.rfc5425.encode p1).length + 500 ≤ 65536)
    (h2 : 65536 < (Transport.rfc5425.encode p1).length + (Transport.rfc5425.encode p2).length) (hp2 : p2.length < 65536)
    (q : List Net.Recv) (n : Nat) :
    ∃ s buff rs d, Datagram.gramLoop .rfc5425 (n + 2) Tok.init []
        (.datagram (Transport.rfc5425.encode p1) :: .datagram (Transport.rfc5425.encode p2) :: q) = .ret (s, buff, q, rs) ∧ s.out = [d] := by
  obtain ⟨s1, s2, d, hf1, hs1, hr1, hf2, hs2, hout, hr2⟩ := stall_states p1 p2 h20 h1 h2 hp2
  generalize hn1 : (Transport.rfc5425.encode p1).length = n1 at *
  have hroom : Tok.init.room = 65536 := by
    simp only [Tok.State.room, Tok.init, List.length_replicate]; rfl
  have e1 : Net.fakeRead [] Tok.init.room (.datagram (Transport.rfc5425.encode p1)) = (Transport.rfc5425.encode p1, false, []) := by
    rw [hroom]
    unfold Net.fakeRead
    have : (Transport.rfc5425.encode p1).take 65536 = Transport.rfc5425.encode p1 := List.take_of_length_le (by omega)
    simp only [List.length_nil, if_true, this]
    rw [if_neg (by omega)]
  have e2 : ∃ buff, buff ≠ [] ∧ Net.fakeRead [] s1.room (.datagram (Transport.rfc5425.encode p2)) =
      ((Transport.rfc5425.encode p2).take (65536 - n1), false, buff) := by
    unfold Net.fakeRead
    simp only [List.length_nil, if_true]
    rw [hr1, if_pos (by rw [List.length_take]; omega)]
    refine ⟨((Transport.rfc5425.encode p2).take 65536).drop (65536 - n1), ?_, ?_⟩
    · intro e
      have := congrArg List.length e
      simp only [List.length_drop, List.length_take, List.length_nil] at this
      omega
    · rw [List.take_take, Nat.min_eq_left (by omega)]
  obtain ⟨buff, hb, e2⟩ := e2
  have stalled : ∀ (n : Nat) (s : Tok.State), s.room = 0 → s.out = [d] →
      ∃ s' rs, Datagram.gramLoop .rfc5425 n s buff q = .ret (s', buff, q, rs) ∧ s'.out = [d] := by
    intro n
    induction n with
    | zero => intro s _ ho; exact ⟨s, [], rfl, ho⟩
    | succ n ih =>
      intro s h0 ho
      have hfr : Net.fakeRead buff s.room .error = ([], false, buff) := by
        unfold Net.fakeRead
        have : buff.length ≠ 0 := by simpa using hb
        simp [h0]
        intro h; exact absurd h hb
      have hst : ∃ s', Tok.step .rfc5425 s { data := [] } = .ret (true, s') ∧ s'.out = s.out ∧ s'.room = s.room := by
        refine ⟨_, rfl, rfl, ?_⟩
        simp [Tok.State.room, Tok.overwrite]
      obtain ⟨s', g1, g2, g3⟩ := hst
      obtain ⟨s2, rs, k1, k2⟩ := ih s' (by rw [g3, h0]) (by rw [g2, ho])
      refine ⟨s2, { data := [] } :: rs, ?_, k2⟩
      unfold Datagram.gramLoop
      rw [if_neg (by simpa using hb)]
      simp only [hfr]
      show (Tok.step .rfc5425 s { data := [] } >>= _) = _
      rw [g1]
      simp only [Out.ret_bind]
      rw [k1]
      rfl
  obtain ⟨s', rs, k1, k2⟩ := stalled n s2 hr2 hout
  refine ⟨s', buff, { data := Transport.rfc5425.encode p1 } :: { data := (Transport.rfc5425.encode p2).take (65536 - n1) } :: rs, d, ?_, k2⟩
  unfold Datagram.gramLoop
  simp only [List.length_nil, if_true, e1]
  show (Tok.step .rfc5425 Tok.init { data := Transport.rfc5425.encode p1 } >>= _) = _
  rw [hs1]
  simp only [Out.ret_bind]
  unfold Datagram.gramLoop
  simp only [List.length_nil, if_true, e2]
  have : Datagram.asRead ((Transport.rfc5425.encode p2).take (65536 - n1), false, buff) = { data := (Transport.rfc5425.encode p2).take (65536 - n1) } := rfl
  rw [this, hs2]
  simp only [Out.ret_bind]
  rw [k1]
  rfl

/-! The hypotheses are met: two senders with one message each, structured data, LF at the end; an error of the system
between the datagrams; the receiver has received both. -/

/-- The first message. -/
def gramMsg (text : Bytes) : Message := exampleMsg text

/-- The frame of a message. -/
def gramFrame (text : Bytes) : Bytes := frameOf .lfEnded (gramMsg text)

/-- A sender. -/
def gramSent (text : Bytes) : List Sender.Event :=
  [.send (gramMsg text), .endCall, .seeEnd, .tau, .tau, .connect none, .tau, .tau, .write (gramFrame text).length none, .tau, .tau, .tau, .tau, .tau, .tau]

/-- What the system answers. -/
def gramAnswers : List Net.Recv := [.datagram (gramFrame b!"two"), .error, .datagram (gramFrame b!"one")]

/-- The receiver. -/
def gramReceived : List Recv.Event :=
  [.tau, .acceptOk, .read 0 { data := gramFrame b!"two" }, .handoff 0, .read 0 { data := [], err := .other }, .sendErr 0, .read 0 { data := gramFrame b!"one" }, .handoff 0]

theorem gramMsg_fits (text : Bytes) (h : text = b!"one" ∨ text = b!"two") : FitsDatagram .lfEnded (gramMsg text) where
  header := exampleMsg_good _
  time := by constructor <;> (simp only [gramMsg, exampleMsg, Message.createWhole]; decide +kernel)
  sd := ⟨_, exampleMsg_sd _⟩
  text := fun _ => freeText_plain (by rcases h with rfl | rfl <;> (simp only [gramMsg, exampleMsg, Message.createWhole]; decide +kernel))
  size := by
    intro b hb
    have : (gramFrame text).length ≤ 500 := by rcases h with rfl | rfl <;> decide +kernel
    rwa [gramFrame, frameOf, hb] at this
  ended := by
    intro z hz
    have hz : z = 10 := hz
    subst hz
    rcases h with rfl | rfl <;> (simp only [gramMsg, exampleMsg, Message.createWhole]; decide +kernel)

/-- The senders, the datagrams with their sender. -/
def gramSenders : List (List Sender.Event × Sender.State) :=
  [b!"one", b!"two"].map fun x => (gramSent x, ⟨[], [⟨[gramFrame x], true⟩], true, false, [], true, true, false, false, .closeErr⟩)

/-- The datagrams with their sender. -/
def gramArrived : List (Nat × Bytes) := [(1, gramFrame b!"two"), (0, gramFrame b!"one")]

example : (∀ x ∈ gramSenders, History .lfEnded x.1 x.2) ∧ (∀ x ∈ gramSenders, ∀ nb e, .write nb (some e) ∈ x.1 → nb = 0) ∧
    (∀ x ∈ gramSenders, ∀ m ∈ sent x.1, FitsDatagram .lfEnded m) ∧
    (∀ d ∈ gramArrived, d.1 < gramSenders.length) ∧ datagrams gramAnswers = gramArrived.map (·.2) ∧
    (∀ j x, gramSenders[j]? = some x → (fromSender j gramArrived).Sublist (packets x.2)) := by
  refine ⟨?_, ?_, ?_, by decide +kernel, by decide +kernel, ?_⟩
  · intro x hx
    simp only [gramSenders, List.map_cons, List.map_nil, List.mem_cons, List.not_mem_nil, or_false] at hx
    rcases hx with rfl | rfl <;> decide +kernel
  · intro x hx nb e he
    simp only [gramSenders, List.map_cons, List.map_nil, List.mem_cons, List.not_mem_nil, or_false] at hx
    rcases hx with rfl | rfl <;> simp [gramSent] at he
  · intro x hx m hm
    simp only [gramSenders, List.map_cons, List.map_nil, List.mem_cons, List.not_mem_nil, or_false] at hx
    rcases hx with rfl | rfl <;> (simp only [gramSent, sent, List.mem_cons, List.not_mem_nil, or_false] at hm; subst hm)
    · exact gramMsg_fits _ (.inl rfl)
    · exact gramMsg_fits _ (.inr rfl)
  · intro j x hj
    match j, hj with
    | 0, hj =>
      simp only [gramSenders, List.map_cons, List.getElem?_cons_zero, Option.some.injEq] at hj
      subst hj
      have : fromSender 0 gramArrived = [gramFrame b!"one"] ∧ gramFrame b!"one" ≠ [] := by decide +kernel
      rw [this.1]; simp [packets, this.2]
    | 1, hj =>
      simp only [gramSenders, List.map_cons, List.getElem?_cons_succ, List.getElem?_cons_zero, Option.some.injEq] at hj
      subst hj
      have : fromSender 1 gramArrived = [gramFrame b!"two"] ∧ gramFrame b!"two" ≠ [] := by decide +kernel
      rw [this.1]; simp [packets, this.2]
    | j + 2, hj => simp [gramSenders] at hj

theorem gramReceived_run : ∃ q, Recv.run .lfEnded 0 Recv.init gramReceived = some q ∧ q.crashed = false ∧ q.pipeline = [] ∧ q.errs = 1 ∧
    q.conns.length = 1 ∧ (∀ c ∈ q.conns, c.pending = [] ∧ c.errPending = false) ∧ (ofConn 0 q.got).length = 2 := by
  have h : (match Recv.run .lfEnded 0 Recv.init gramReceived with
      | some q => !q.crashed && q.pipeline.isEmpty && decide (q.errs = 1) && decide (q.conns.length = 1) &&
        (q.conns.all fun c => c.pending.isEmpty && !c.errPending) && decide ((ofConn 0 q.got).length = 2)
      | none => false) = true := by decide +kernel
  cases hq : Recv.run .lfEnded 0 Recv.init gramReceived with
  | none => rw [hq] at h; cases h
  | some q =>
    rw [hq] at h
    simp only [Bool.and_eq_true, Bool.not_eq_true', List.isEmpty_iff, decide_eq_true_eq, List.all_eq_true] at h
    exact ⟨q, rfl, h.1.1.1.1.1, h.1.1.1.1.2, h.1.1.1.2, h.1.1.2, h.1.2, h.2⟩

example : ∃ q k tok, Recv.run .lfEnded 0 Recv.init gramReceived = some q ∧ q.crashed = false ∧ q.conns[0]? = some k ∧
    k.pending = [] ∧ ofConn 0 q.pipeline = [] ∧ (ofConn 0 q.got).length = 2 ∧
    Datagram.gramLoop .lfEnded 3 Tok.init [] gramAnswers = .ret (tok, [], [], readsOf 0 gramReceived) := by
  obtain ⟨tok, ds, g, _⟩ := gramLoop_frames .lfEnded 3 gramAnswers [gramMsg b!"two", gramMsg b!"one"] Tok.init atRest_init
    (by intro m hm
        simp only [List.mem_cons, List.not_mem_nil, or_false] at hm
        rcases hm with rfl | rfl
        · exact gramMsg_fits _ (.inr rfl)
        · exact gramMsg_fits _ (.inl rfl))
    (each_isFrame (by
        intro m hm
        simp only [List.mem_cons, List.not_mem_nil, or_false] at hm
        rcases hm with rfl | rfl
        · exact gramMsg_fits _ (.inr rfl)
        · exact gramMsg_fits _ (.inl rfl)))
  have hr : (gramAnswers.take 3).map (fun r => Datagram.asRead (Net.fakeRead [] 500 r)) = readsOf 0 gramReceived := by
    have l1 : (gramFrame b!"one").length ≤ 500 := by decide +kernel
    have l2 : (gramFrame b!"two").length ≤ 500 := by decide +kernel
    simp only [gramAnswers, List.take_succ_cons, List.take_nil, List.map_cons, List.map_nil, fakeRead_datagram l1 (Nat.le_refl _),
      fakeRead_datagram l2 (Nat.le_refl _)]
    rfl
  rw [hr] at g
  obtain ⟨q, hq, h1, h2, -, h4, h5, h6⟩ := gramReceived_run
  have hk : q.conns[0]? = some (q.conns[0]'(by omega)) := List.getElem?_eq_getElem _
  exact ⟨q, _, tok, hq, h1, hk, (h5 _ (List.getElem_mem _)).1, by rw [h2]; rfl, h6, g⟩

end Syslog5424
