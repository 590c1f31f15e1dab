import Verif.Spec.Relay
import Verif.Props.Reconnect
import Verif.Props.Registered
import Verif.Props.Logging
/-! # C106: a program that forwards what it receives -/
namespace Syslog5424
open Spec

theorem carries (t : Transport) : Carries t (Travels t) := by
  cases t with
  | zeroEnded => exact carries_lines (.inr ⟨rfl, rfl⟩)
  | lfEnded => exact carries_lines (.inl ⟨rfl, rfl⟩)
  | rfc5425 => exact carries_5425

theorem microseconds_idem (t : Time) : t.microseconds.microseconds = t.microseconds := by
  simp only [Time.microseconds, Time.mk.injEq, true_and, and_true]
  omega

theorem microseconds_valid {t : Time} (h : t.Valid) : t.microseconds.Valid :=
  ⟨h.year, h.month, h.day, h.hour, h.minute, h.second, by have := h.nsec; simp only [Time.microseconds]; omega, h.off⟩

theorem sdListMarshal_congr {l l' : List SD} (e : l.map SD.marshal = l'.map SD.marshal) : sdListMarshal l = sdListMarshal l' := by
  have hlen : l.length = l'.length := by simpa using congrArg List.length e
  unfold sdListMarshal
  rw [hlen]
  split
  · rfl
  · clear hlen
    induction l generalizing l' with
    | nil => cases l' with
      | nil => rfl
      | cons => simp at e
    | cons a r ih =>
      cases l' with
      | nil => simp at e
      | cons a' r' =>
        simp only [List.map_cons, List.cons.injEq] at e
        unfold encodeAll
        rw [e.1]
        by_cases hr' : r' = []
        · subst hr'
          have : r = [] := by simpa using e.2
          subst this; rfl
        · rw [ih e.2 (by simpa using hr')]

theorem readAs_det {reg : List SDID} {v v' w w' : SD} (hm : v.marshal = v'.marshal) (h : ReadAs reg v w) (h' : ReadAs reg v' w') : w = w' := by
  obtain ⟨b, hb, g⟩ := h
  obtain ⟨b', hb', g'⟩ := h'
  rw [hm, hb'] at hb
  simp only [Out.ret.injEq, Except.ok.injEq] at hb
  subst hb
  have := g []
  rw [g' []] at this
  simpa using this.symm

/-- A message with the same wire form is as good as the other one. -/
theorem hop_same {m w : Message} (ht : m.timestamp.Valid) (h1 : w.prio = m.prio) (h2 : w.timestamp = m.timestamp.microseconds)
    (h3 : w.hostname = m.hostname) (h4 : w.appname = m.appname) (h5 : w.procid = m.procid) (h6 : w.msgid = m.msgid)
    (h7 : w.sd.map SD.marshal = m.sd.map SD.marshal) (h8 : w.message = m.message) :
    w.marshal = m.marshal ∧ (∀ t, Travels t m → Travels t w) ∧ (∀ reg, Reproduces reg m → Reproduces reg w) ∧
    ∀ d, IsReceived w d → IsReceived m d := by
  have hnil : w.sd = [] ↔ m.sd = [] := by
    constructor
    · intro h; rw [h] at h7; simpa using h7.symm
    · intro h; rw [h] at h7; simpa using h7
  have hm : w.marshal = m.marshal := by
    unfold Message.marshal
    simp only [h1, h2, h3, h4, h5, h6, h8, sdListMarshal_congr h7, Time.format_trunc ht.nsec]
  have hgood : GoodMsg m → GoodMsg w := fun g => ⟨by rw [h1]; exact g.prio, by rw [h3]; exact g.host, by rw [h4]; exact g.app,
    by rw [h5]; exact g.pid, by rw [h6]; exact g.mid⟩
  have hval : w.timestamp.Valid := by rw [h2]; exact microseconds_valid ht
  have hline : ∀ z, TransmissibleLine z m → TransmissibleLine z w := fun z g =>
    ⟨hgood g.header, hval, hnil.mpr g.sd, by rw [h8]; exact g.text, by rw [h8]; exact g.clean⟩
  have hmem : ∀ x ∈ w.sd, ∃ v ∈ m.sd, v.marshal = x.marshal := by
    intro x hx
    have : x.marshal ∈ w.sd.map SD.marshal := List.mem_map_of_mem hx
    rw [h7, List.mem_map] at this
    exact this
  refine ⟨hm, ?_, ?_, ?_⟩
  · intro t g
    cases t with
    | zeroEnded => exact hline 0 g
    | lfEnded => exact hline 10 g
    | rfc5425 =>
      obtain ⟨els, g1, g2⟩ := g.sd
      exact ⟨⟨hgood g.header, hval, ⟨els, by rw [h7]; exact g1, g2⟩, fun h => by rw [h8]; exact g.text (fun e => h (hnil.mpr e))⟩,
        fun b hb => g.size b (by rw [← hm]; exact hb)⟩
  · intro reg hr x hx
    obtain ⟨v, hv, he⟩ := hmem x hx
    obtain ⟨y, ⟨b, hb, hf⟩, hy⟩ := hr v hv
    exact ⟨y, ⟨b, by rw [← he]; exact hb, hf⟩, by rw [hy, he]⟩
  · intro d hd
    refine ⟨hd.err, by rw [← hm]; exact hd.bytes, by rw [← h1]; exact hd.priority, ?_, by rw [← h3]; exact hd.hostname,
      by rw [← h4]; exact hd.appName, by rw [← h5]; exact hd.procID, by rw [← h6]; exact hd.msgID, by rw [← h8]; exact hd.text, ?_, ?_⟩
    · have := hd.timeStamp
      rwa [h2, microseconds_idem] at this
    · obtain ⟨l, g1, g2⟩ := hd.structuredData
      exact ⟨l, g1, by rw [g2, h7]⟩
    · intro reg f hf
      classical
      let g : SD → SD := fun x => if h : ∃ y, ReadAs reg x y then h.choose else x
      have hg : ∀ x ∈ w.sd, ReadAs reg x (g x) := by
        intro x hx
        obtain ⟨v, hv, he⟩ := hmem x hx
        obtain ⟨b, hb, hfol⟩ := hf v hv
        have hex : ∃ y, ReadAs reg x y := ⟨f v, b, by rw [← he]; exact hb, hfol⟩
        simp only [g, dif_pos hex]
        exact hex.choose_spec
      rw [hd.registered reg g hg]
      congr 1
      have aux : ∀ (l l' : List SD), l.map SD.marshal = l'.map SD.marshal → (∀ x ∈ l, ReadAs reg x (g x)) → (∀ v ∈ l', ReadAs reg v (f v)) →
          l.map g = l'.map f := by
        intro l
        induction l with
        | nil => intro l' e _ _; cases l' with
          | nil => rfl
          | cons => simp at e
        | cons a r ih =>
          intro l' e k1 k2
          cases l' with
          | nil => simp at e
          | cons a' r' =>
            simp only [List.map_cons, List.cons.injEq] at e ⊢
            exact ⟨readAs_det e.1 (k1 a (by simp)) (k2 a' (by simp)), ih r' e.2 (fun x hx => k1 x (by simp [hx])) (fun x hx => k2 x (by simp [hx]))⟩
      exact aux _ _ h7 hg hf

/-- **C106**, one program. A message that was received can be made writable and sent again: it has the same bytes on the
wire, it travels wherever the first one travels, and whoever receives it has received the first one. Missing: identifiers that do not reproduce
what they read (`C14_timequality_violated`). -/
theorem C106_hop_partial (reg : List SDID) (m : Message) (d : Tok.Delivered) (hr : IsReceived m d) (ht : m.timestamp.Valid) (hreg : Reproduces reg m) :
    ∃ w, d.msg.writable reg = .ret w ∧ w.marshal = m.marshal ∧ w.timestamp.Valid ∧ (∀ t, Travels t m → Travels t w) ∧
      (∀ reg', Reproduces reg' m → Reproduces reg' w) ∧ ∀ d', IsReceived w d' → IsReceived m d' := by
  classical
  let f : SD → SD := fun v => if h : ∃ w, ReadAs reg v w ∧ w.marshal = v.marshal then h.choose else v
  have hf : ∀ v ∈ m.sd, ReadAs reg v (f v) ∧ (f v).marshal = v.marshal := by
    intro v hv
    have hex := hreg v hv
    simp only [f, dif_pos hex]
    exact hex.choose_spec
  have hsd := hr.registered reg f (fun v hv => (hf v hv).1)
  have hw : d.msg.writable reg = .ret ⟨m.prio, m.timestamp.microseconds, m.hostname, m.appname, m.procid, m.msgid, m.sd.map f, m.message⟩ := by
    unfold MsgImm.writable
    rw [hr.priority, hr.timeStamp, hr.hostname, hr.appName, hr.procID, hr.msgID, hsd, hr.text]
    rfl
  obtain ⟨g1, g2, g3, g4⟩ := hop_same (m := m) (w := ⟨m.prio, m.timestamp.microseconds, m.hostname, m.appname, m.procid, m.msgid, m.sd.map f, m.message⟩)
    ht rfl rfl rfl rfl rfl rfl (by
      rw [List.map_map]
      exact List.map_congr_left fun v hv => (hf v hv).2) rfl
  exact ⟨_, hw, g1, microseconds_valid ht, g2, g3, g4⟩

/-- **C106**, any number of programs one behind the other, each with its own identifiers: at the end of the chain the
message has the same bytes as at the beginning, and whoever receives it has received the first one. -/
theorem C106_chain_partial (regs : List (List SDID)) (m w : Message) (h : RelayedAs regs m w) (ht : m.timestamp.Valid) (hreg : ∀ reg ∈ regs, Reproduces reg m) :
    w.marshal = m.marshal ∧ (∀ t, Travels t m → Travels t w) ∧ ∀ d, IsReceived w d → IsReceived m d := by
  have key : w.marshal = m.marshal ∧ w.timestamp.Valid ∧ (∀ t, Travels t m → Travels t w) ∧ (∀ reg, Reproduces reg m → Reproduces reg w) ∧
      ∀ d, IsReceived w d → IsReceived m d := by
    induction h with
    | here => exact ⟨rfl, ht, fun _ h => h, fun _ h => h, fun _ h => h⟩
    | @hop regs reg m w w' d _ hd hw ih =>
      obtain ⟨k1, k2, k3, k4, k5⟩ := ih ht (fun r hr => hreg r (List.mem_append.mpr (.inl hr)))
      obtain ⟨w2, g1, g2, g3, g4, g5, g6⟩ := C106_hop_partial reg w d hd k2 (k4 reg (hreg reg (List.mem_append.mpr (.inr (List.mem_singleton.mpr rfl)))))
      rw [hw] at g1
      simp only [Out.ret.injEq] at g1
      subst g1
      exact ⟨g2.trans k1, g3, fun t h => g4 t (k3 t h), fun r h => g5 r (k4 r h), fun d h => k5 d (g6 d h)⟩
  exact ⟨key.1, key.2.2.1, key.2.2.2.2⟩

/-- Without registered identifiers every message that travels is reproduced. -/
theorem C106_unregistered (t : Transport) (m : Message) (h : Travels t m) : Reproduces [] m := by
  have hsd : ∃ els, MarshalsTo m.sd els := by
    cases t with
    | rfc5425 => exact h.sd
    | lfEnded => exact ⟨[], by rw [h.sd]; rfl, by simp⟩
    | zeroEnded => exact ⟨[], by rw [h.sd]; rfl, by simp⟩
  obtain ⟨els, h1, h2⟩ := hsd
  intro v hv
  have : v.marshal ∈ m.sd.map SD.marshal := List.mem_map_of_mem hv
  rw [h1, List.mem_map] at this
  obtain ⟨x, hx, he⟩ := this
  obtain ⟨b, hm, hb, _⟩ := C22_encode_decode_partial x.1 x.2 (h2 x hx).1 (h2 x hx).2 []
  subst hb
  refine ⟨.unknown x.1 x.2, ⟨_, he.symm, fun fol => ?_⟩, by rw [← he]; exact hm⟩
  obtain ⟨b', _, hb', hd⟩ := C22_encode_decode_partial x.1 x.2 (h2 x hx).1 (h2 x hx).2 fol
  subst hb'
  exact hd

/-- With the `timequality` package imported and any `GenericSDID`s registered: messages whose elements are long enough for
the registered names, and are `TimeQuality` values or are not timeQuality elements, are reproduced. Missing: the other ones, see `C99_short_violated`,
`C14_timequality_violated`. -/
theorem C106_package_partial (m : Message) (els : List (Bytes × List (Bytes × Bytes))) (hels : MarshalsTo m.sd els) (reg : List SDID) (htq : tqSDID ∈ reg)
    (hfit : ∀ i ∈ reg, ∀ x ∈ els, Fits i (elementText x.1 x.2))
    (hq : ∀ v ∈ m.sd, (∃ t, v = .tq t ∧ ∀ x, t.syncAccuracy = some x → x < 2 ^ 63) ∨ ∀ b t, v.marshal = .ret (.ok b) → ¬ IsTqText b t) : Reproduces reg m := by
  intro v hv
  obtain ⟨h1, h2⟩ := hels
  have : v.marshal ∈ m.sd.map SD.marshal := List.mem_map_of_mem hv
  rw [h1, List.mem_map] at this
  obtain ⟨x, hx, he⟩ := this
  obtain ⟨w, hw1, hw2⟩ := readAs_package htq (h2 x hx).1 (h2 x hx).2 he.symm fun i hi => hfit i hi x hx
  refine ⟨w, hw2, ?_⟩
  cases hw1 with
  | quality hb ht =>
    rcases hq v hv with ⟨t, rfl, hs⟩ | hn
    · rw [(C99_itself _ _ (.quality hb ht)).1 t rfl hs]
    · exact absurd ht (hn _ _ hb)
  | other hb hw hne hn =>
    rw [hb]
    show (Out.ret (Except.ok (unknownMarshal _ _)) : Res Bytes) = _
    rw [unknownMarshal_eq]

/-! ## what is behind the program -/

theorem each_len {α β : Type} {R : α → β → Prop} {as : List α} {bs : List β} {n : Nat} (h : Each R (as.take n) bs) (hn : bs.length = n) : n ≤ as.length := by
  have := each_length h
  rw [List.length_take] at this
  omega

theorem forwards_each {reg : List SDID} {got : List (Nat × Tok.Delivered)} {ms : List Message} (h : Forwards reg got ms) {ds : List Tok.Delivered}
    (hd : Each IsReceived (ms.take ds.length) ds) :
    Each (fun x d => ∀ m, m.timestamp.Valid → Reproduces reg m → IsReceived m x.2 → IsReceived m d) (got.take ds.length) ds := by
  have hle : ds.length ≤ ms.length := each_len hd rfl
  have h1 := each_take h ds.length
  rw [List.take_take, Nat.min_eq_left hle] at h1
  refine each_trans h1 hd ?_
  intro x w d _ hw hd m ht hr hm
  obtain ⟨w', g1, _, _, _, _, g2⟩ := C106_hop_partial reg m x.2 hm ht hr
  rw [hw] at g1
  simp only [Out.ret.injEq] at g1
  subst g1
  exact g2 d hd

theorem labelled_take (got : List (Nat × Tok.Delivered)) (ds : List Tok.Delivered) : labelled (got.take ds.length) ds = labelled got ds := by
  unfold labelled
  induction ds generalizing got with
  | nil => simp
  | cons d ds ih =>
    cases got with
    | nil => simp
    | cons x got => simp only [List.length_cons, List.take_succ_cons, List.map_cons, List.zip_cons_cons]; rw [ih got]

theorem labelled_short (got : List (Nat × Tok.Delivered)) (ds : List Tok.Delivered) : labelled got (ds.take got.length) = labelled got ds := by
  unfold labelled
  induction got generalizing ds with
  | nil => simp
  | cons x got ih =>
    cases ds with
    | nil => simp
    | cons d ds => simp only [List.length_cons, List.take_succ_cons, List.map_cons, List.zip_cons_cons]; rw [ih ds]

theorem labelled_each {R : Nat × Tok.Delivered → Tok.Delivered → Prop} {S : Tok.Delivered → Tok.Delivered → Prop} (hRS : ∀ x d, R x d → S x.2 d)
    {got : List (Nat × Tok.Delivered)} {ds : List Tok.Delivered} (h : Each R got ds) (i : Nat) : Each S (ofConn i got) (ofConn i (labelled got ds)) := by
  induction h with
  | nil => exact .nil
  | @cons x d xs ds hxd _ ih =>
    simp only [labelled, List.map_cons, List.zip_cons_cons] at ih ⊢
    by_cases hi : x.1 = i
    · have e1 : ofConn i (x :: xs) = x.2 :: ofConn i xs := by simp [ofConn, hi]
      have e2 : ofConn i ((x.1, d) :: (xs.map (·.1)).zip ds) = d :: ofConn i ((xs.map (·.1)).zip ds) := by simp [ofConn, hi]
      rw [e1, e2]
      exact .cons (hRS x d hxd) ih
    · have e1 : ofConn i (x :: xs) = ofConn i xs := by simp [ofConn, hi]
      have e2 : ofConn i ((x.1, d) :: (xs.map (·.1)).zip ds) = ofConn i ((xs.map (·.1)).zip ds) := by simp [ofConn, hi]
      rw [e1, e2]
      exact ih

theorem each_append {α β : Type} {R : α → β → Prop} {as as' : List α} {bs bs' : List β} (h : Each R as bs) (h' : Each R as' bs') : Each R (as ++ as') (bs ++ bs') := by
  induction h with
  | nil => exact h'
  | cons a _ ih => exact .cons a ih

theorem labelled_over {R : Nat × Tok.Delivered → Tok.Delivered → Prop} {S : Tok.Delivered → Tok.Delivered → Prop} (hRS : ∀ x d, R x d → S x.2 d)
    {got : List (Nat × Tok.Delivered)} {ds : List Tok.Delivered} (h : Each R got ds) (f : Nat → Nat) (k : Nat) :
    Each S (receivedOver f k got) (receivedOver f k (labelled got ds)) := by
  unfold receivedOver
  generalize List.range k = l
  induction l with
  | nil => exact .nil
  | cons j l ih => simp only [List.flatMap_cons]; exact each_append (labelled_each hRS h _) ih

theorem travels_valid {t : Transport} {m : Message} (h : Travels t m) : m.timestamp.Valid := by
  cases t <;> exact h.time

/-- What a program forwards travels if what it received does. -/
theorem forwards_travel {t : Transport} {reg : List SDID} {got : List (Nat × Tok.Delivered)} {ms : List Message} (h : Forwards reg got ms)
    (hgot : ∀ x ∈ got, ∃ m, Travels t m ∧ Reproduces reg m ∧ IsReceived m x.2) : ∀ m ∈ ms, Travels t m := by
  intro w hw
  obtain ⟨x, hx, e⟩ := each_mem h w hw
  obtain ⟨m, h1, h2, h3⟩ := hgot x (List.mem_of_mem_take hx)
  obtain ⟨w', g1, _, _, g2, _⟩ := C106_hop_partial reg m x.2 h3 (travels_valid h1) h2
  rw [e] at g1
  simp only [Out.ret.injEq] at g1
  subst g1
  exact g2 t h1

/-- **C106**, at every moment: a sender, a receiver (with the transport `t1`), a program that forwards all that it receives, from this and from
other connections, in the order of its calls of `Receive`, to a second sender and a second receiver (with the transport
`t2`). What the second receiver has returned of the messages that came to the program on the connection of the first sender are
the messages given to the first sender, from the first one on, in order, each exactly once, with all their fields and no
error. (On the first connections of the two senders; any schedules, segmentations, queue lengths.) Missing: messages that do
not travel over both transports, or are not reproduced. -/
theorem C106_in_order_partial (t1 t2 : Transport) (reg : List SDID)
    (es1 : List Sender.Event) (s1 : Sender.State) (hs1 : History t1 es1 s1) (hmsgs : ∀ m ∈ sent es1, Travels t1 m ∧ Reproduces reg m)
    (c1 : Sender.Conn) (r1 : List Sender.Conn) (hc1 : s1.conns = c1 :: r1)
    (lenQueue1 : Nat) (er1 : List Recv.Event) (q1 : Recv.State) (hq1 : Recv.run t1 lenQueue1 Recv.init er1 = some q1) (hcr1 : q1.crashed = false)
    (i1 : Nat) (k1 : Recv.Conn) (hi1 : q1.conns[i1]? = some k1) (hwire1 : arrived (readsOf i1 er1) <+: c1.writes.flatten)
    (hgot : ∀ x ∈ q1.got, ∃ m, Travels t2 m ∧ Reproduces reg m ∧ IsReceived m x.2)
    (es2 : List Sender.Event) (s2 : Sender.State) (hs2 : History t2 es2 s2) (hfwd : Forwards reg q1.got (sent es2))
    (c2 : Sender.Conn) (r2 : List Sender.Conn) (hc2 : s2.conns = c2 :: r2)
    (lenQueue2 : Nat) (er2 : List Recv.Event) (q2 : Recv.State) (hq2 : Recv.run t2 lenQueue2 Recv.init er2 = some q2) (hcr2 : q2.crashed = false)
    (i2 : Nat) (k2 : Recv.Conn) (hi2 : q2.conns[i2]? = some k2) (hwire2 : arrived (readsOf i2 er2) <+: c2.writes.flatten) :
    Each IsReceived ((sent es1).take (ofConn i1 (labelled q1.got (ofConn i2 q2.got))).length) (ofConn i1 (labelled q1.got (ofConn i2 q2.got))) := by
  have a1 := (conn_received (carries t1) es1 s1 hs1 (fun m hm => (hmsgs m hm).1) [] r1 c1 hc1 0 rfl lenQueue1 er1 q1 hq1 hcr1 i1 k1 hi1 hwire1).1
  have a2 := (conn_received (carries t2) es2 s2 hs2 (forwards_travel hfwd hgot) [] r2 c2 hc2 0 rfl lenQueue2 er2 q2 hq2 hcr2 i2 k2 hi2 hwire2).1
  rw [List.drop_zero] at a1 a2
  generalize hD : ofConn i2 q2.got = D at *
  have b := labelled_each (fun _ _ h => h) (forwards_each hfwd a2) i1
    (S := fun x d => ∀ m, m.timestamp.Valid → Reproduces reg m → IsReceived m x → IsReceived m d)
  rw [labelled_take] at b
  obtain ⟨r, hr⟩ := ofConn_prefix (i := i1) (List.take_prefix D.length q1.got)
  rw [← hr] at a1
  rw [List.length_append] at a1
  have a3 := each_prefix a1
  rw [List.take_take, Nat.min_eq_left (by omega), ← each_length b] at a3
  refine each_trans a3 b ?_
  intro m x d hm hx hd
  have := hmsgs m (List.mem_of_mem_take hm)
  exact hd m (travels_valid this.1) this.2 hx

/-- **C106**, the whole: when the program has forwarded everything, and everything has arrived at both receivers and been
returned, the second receiver has returned every message given to the first sender, exactly once, in order, with all its
fields and no error; whatever reconnections the two senders made between two frames. -/
theorem C106_complete_partial (t1 t2 : Transport) (reg : List SDID)
    (es1 : List Sender.Event) (s1 : Sender.State) (hs1 : History t1 es1 s1) (hcut1 : CutsBetween (frames t1 es1) s1.conns)
    (hmsgs : ∀ m ∈ sent es1, Travels t1 m ∧ Reproduces reg m) (hall1 : (frames t1 es1).flatten <+: wire s1)
    (lenQueue1 : Nat) (er1 : List Recv.Event) (q1 : Recv.State) (hq1 : Recv.run t1 lenQueue1 Recv.init er1 = some q1) (hcr1 : q1.crashed = false)
    (f1 : Nat → Nat) (hf1 : ∀ (j : Nat) (c : Sender.Conn), s1.conns[j]? = some c → ∃ k, q1.conns[f1 j]? = some k ∧
      arrived (readsOf (f1 j) er1) = c.writes.flatten ∧ k.pending = [] ∧ ofConn (f1 j) q1.pipeline = [])
    (hgot : ∀ x ∈ q1.got, ∃ m, Travels t2 m ∧ Reproduces reg m ∧ IsReceived m x.2)
    (es2 : List Sender.Event) (s2 : Sender.State) (hs2 : History t2 es2 s2) (hfwd : Forwards reg q1.got (sent es2))
    (hfwdall : (sent es2).length = q1.got.length) (hcut2 : CutsBetween (frames t2 es2) s2.conns) (hall2 : (frames t2 es2).flatten <+: wire s2)
    (lenQueue2 : Nat) (er2 : List Recv.Event) (q2 : Recv.State) (hq2 : Recv.run t2 lenQueue2 Recv.init er2 = some q2) (hcr2 : q2.crashed = false)
    (f2 : Nat → Nat) (hf2 : ∀ (j : Nat) (c : Sender.Conn), s2.conns[j]? = some c → ∃ k, q2.conns[f2 j]? = some k ∧
      arrived (readsOf (f2 j) er2) = c.writes.flatten ∧ k.pending = [] ∧ ofConn (f2 j) q2.pipeline = []) :
    Each IsReceived (sent es1) (receivedOver f1 s1.conns.length (labelled q1.got (receivedOver f2 s2.conns.length q2.got))) := by
  have a1 := all_received (carries t1) es1 s1 hs1 hcut1 (fun m hm => (hmsgs m hm).1) hall1 lenQueue1 er1 q1 hq1 hcr1 f1 hf1
  have a2 := all_received (carries t2) es2 s2 hs2 hcut2 (forwards_travel hfwd hgot) hall2 lenQueue2 er2 q2 hq2 hcr2 f2 hf2
  change Each IsReceived (sent es1) (receivedOver f1 s1.conns.length q1.got) at a1
  change Each IsReceived (sent es2) (receivedOver f2 s2.conns.length q2.got) at a2
  generalize hD : receivedOver f2 s2.conns.length q2.got = D at *
  have hl := each_length a2
  have a3 : Each IsReceived ((sent es2).take D.length) D := by rw [hl, List.take_length]; exact a2
  have b := labelled_over (fun _ _ h => h) (forwards_each hfwd a3) f1 s1.conns.length
    (S := fun x d => ∀ m, m.timestamp.Valid → Reproduces reg m → IsReceived m x → IsReceived m d)
  rw [labelled_take, List.take_of_length_le (by omega)] at b
  refine each_trans a1 b ?_
  intro m x d hm hx hd
  exact hd m (travels_valid (hmsgs m hm).1) (hmsgs m hm).2 hx

/-- **C106**, eventually: a sender and the program that keep running and reconnect between two frames, receivers that keep being asked, reliable
networks that have recovered from their failures, and a program that forwards whatever it receives, some time later:
every message given to the first sender is returned by the second receiver. -/
theorem C106_eventually_partial (t1 t2 : Transport) (reg : List SDID)
    (ev1 : Nat → Option Sender.Event) (st1 : Nat → Sender.State) (hx1 : SenderExec t1 ev1 st1)
    (hrun1 : Running t1 ev1 st1) (hread1 : ErrorsRead st1) (hrec1 : Recovers ev1) (hend1 : ∀ n, (st1 n).endAsked = false)
    (hcs1 : ∀ n, (st1 n).crashed = false)
    (hcut1 : ∀ n, CutsBetween (frames t1 (past ev1 n)) (st1 n).conns) (hmsgs : ∀ n, ∀ m ∈ sent (past ev1 n), Travels t1 m ∧ Reproduces reg m)
    (lenQueue1 : Nat) (er1 : Nat → Option Recv.Event) (sr1 : Nat → Recv.State)
    (hxr1 : ReceiverExec t1 lenQueue1 er1 sr1) (hcons1 : Consumed t1 lenQueue1 er1 sr1) (herr1 : ErrorsDrained sr1)
    (hc1 : ∀ n, (sr1 n).crashed = false) (f1 : Nat → Nat)
    (hopen1 : ∀ j, Opened st1 j → Served t1 lenQueue1 (f1 j) er1 sr1 ∧ ∃ n, f1 j < (sr1 n).conns.length)
    (hlink1 : Links st1 f1 er1)
    (hgot : ∀ n, ∀ x ∈ (sr1 n).got, ∃ m, Travels t2 m ∧ Reproduces reg m ∧ IsReceived m x.2)
    (ev2 : Nat → Option Sender.Event) (st2 : Nat → Sender.State) (hx2 : SenderExec t2 ev2 st2)
    (hfwd : ∀ n, ∃ n1, Forwards reg (sr1 n1).got (sent (past ev2 n))) (hlive : ∀ n1, ∃ n, (sr1 n1).got.length ≤ (sent (past ev2 n)).length)
    (hrun2 : Running t2 ev2 st2) (hread2 : ErrorsRead st2) (hrec2 : Recovers ev2) (hend2 : ∀ n, (st2 n).endAsked = false)
    (hcs2 : ∀ n, (st2 n).crashed = false) (hcut2 : ∀ n, CutsBetween (frames t2 (past ev2 n)) (st2 n).conns)
    (lenQueue2 : Nat) (er2 : Nat → Option Recv.Event) (sr2 : Nat → Recv.State)
    (hxr2 : ReceiverExec t2 lenQueue2 er2 sr2) (hcons2 : Consumed t2 lenQueue2 er2 sr2) (herr2 : ErrorsDrained sr2)
    (hc2 : ∀ n, (sr2 n).crashed = false) (f2 : Nat → Nat)
    (hopen2 : ∀ j, Opened st2 j → Served t2 lenQueue2 (f2 j) er2 sr2 ∧ ∃ n, f2 j < (sr2 n).conns.length)
    (hlink2 : Links st2 f2 er2) (n : Nat) :
    ∃ m1 k1 m2 k2, Each IsReceived (sent (past ev1 n))
      ((receivedOver f1 k1 (labelled (sr1 m1).got (receivedOver f2 k2 (sr2 m2).got))).take (sent (past ev1 n)).length) := by
  obtain ⟨m1, k1, a1⟩ := delivered_over (carries t1) ev1 st1 hx1 hcut1 (fun n m hm => (hmsgs n m hm).1) lenQueue1 er1 sr1 hxr1 hcons1 herr1 hc1 f1 hopen1
    hlink1 n (C82_written _ ev1 st1 hx1 hrun1 hread1 hrec1 hend1 hcs1 n)
  obtain ⟨n2, hn2⟩ := hlive m1
  obtain ⟨N, hN⟩ := hfwd n2
  obtain ⟨m2, k2, a2⟩ := delivered_over (carries t2) ev2 st2 hx2 hcut2 (fun n m hm => by
      obtain ⟨n1, h1⟩ := hfwd n
      exact forwards_travel h1 (hgot n1) m hm) lenQueue2 er2 sr2 hxr2 hcons2 herr2 hc2 f2 hopen2
    hlink2 n2 (C82_written _ ev2 st2 hx2 hrun2 hread2 hrec2 hend2 hcs2 n2)
  refine ⟨m1, k1, m2, k2, ?_⟩
  generalize hD : receivedOver f2 k2 (sr2 m2).got = D at *
  generalize hg : (sr1 m1).got = g at *
  -- the first messages, as many as the program had received at the moment `m1`
  have hlen : (sent (past ev2 n2)).length ≤ (sr1 N).got.length := by
    have := each_length hN
    rw [List.length_take] at this
    omega
  have hpre : g <+: (sr1 N).got := by
    rcases Nat.le_total m1 N with h | h
    · rw [← hg]; exact got_exec hxr1 h
    · have := got_exec hxr1 h
      rw [hg] at this
      have e := this.eq_of_length (by have := this.length_le; omega)
      rw [e]
      exact List.prefix_refl _
  have hDl : g.length ≤ D.length := by
    have := each_length a2
    rw [List.length_take] at this
    omega
  have a4 : Each IsReceived ((sent (past ev2 n2)).take (D.take g.length).length) (D.take g.length) := by
    rw [List.length_take, Nat.min_eq_left hDl]
    have := each_take a2 g.length
    rwa [List.take_take, Nat.min_eq_left hn2] at this
  have b := forwards_each hN a4
  rw [List.length_take, Nat.min_eq_left hDl, ← List.prefix_iff_eq_take.mp hpre] at b
  have b := labelled_over (fun _ _ h => h) b f1 k1
    (S := fun x d => ∀ m, m.timestamp.Valid → Reproduces reg m → IsReceived m x → IsReceived m d)
  rw [labelled_short] at b
  have b := each_take b (sent (past ev1 n)).length
  refine each_trans a1 b ?_
  intro m x d hm hx hd
  exact hd m (travels_valid (hmsgs n m hm).1) (hmsgs n m hm).2 hx

/-! ## the hypotheses are met

The sender, the network and the receiver of the example of C100 (two messages, of which the second one needs a second connection, and arrives
first), and behind it a program that forwards over the same kind of line. -/

theorem demoLine_travels : Travels .lfEnded demoLine := by
  refine ⟨⟨(exampleMsg_good b!"").prio, (exampleMsg_good b!"").host, (exampleMsg_good b!"").app, (exampleMsg_good b!"").pid, (exampleMsg_good b!"").mid⟩,
    ?_, rfl, by decide +kernel, by decide +kernel⟩
  constructor <;> (simp only [demoLine, exampleMsg, Message.createWhole]; decide +kernel)

/-- What the program sends: the time is that of the first sender to the microsecond. -/
def demoRelayed : Message := { demoLine with timestamp := demoLine.timestamp.microseconds }

theorem demoRelayed_ne : demoRelayed ≠ demoLine := by
  intro h
  have := congrArg (fun m : Message => m.timestamp.nsec) h
  revert this
  decide +kernel

theorem demoRelayed_writable {d : Tok.Delivered} (h : IsReceived demoLine d) : d.msg.writable [] = .ret demoRelayed := by
  have hsd := h.registered [] id (by intro v hv; simp [demoLine] at hv)
  unfold MsgImm.writable
  rw [h.priority, h.timeStamp, h.hostname, h.appName, h.procID, h.msgID, hsd, h.text]
  rfl

theorem demoRelayed_marshal : demoRelayed.marshal = demoLine.marshal := by decide +kernel

theorem demoMany_is {q : Recv.State} (hq : Recv.run .lfEnded 0 Recv.init demoManyReceived = some q) (hcr : q.crashed = false) (hl : q.conns.length = 2) :
    ∀ x ∈ q.got, IsReceived demoLine x.2 := by
  have hs : History .lfEnded demoManySent ⟨[], [⟨[demoLineFrame, []], false⟩, ⟨[demoLineFrame], false⟩], true, false, [.write 0], false, false, false, false, .select⟩ := by
    decide +kernel
  have key : ∀ i < 2, ∀ d ∈ ofConn i q.got, IsReceived demoLine d := by
    intro i hi d hd
    have hk : ∃ k, q.conns[i]? = some k := ⟨q.conns[i]'(by omega), List.getElem?_eq_getElem (by omega)⟩
    obtain ⟨k, hk⟩ := hk
    have hm : ∀ m ∈ sent demoManySent, Travels .lfEnded m := by
      intro m hm
      have e : sent demoManySent = [demoLine, demoLine] := rfl
      rw [e] at hm
      have : m = demoLine := by simpa using hm
      subst this
      exact demoLine_travels
    have hE : ∃ n, Each IsReceived (((sent demoManySent).drop n).take (ofConn i q.got).length) (ofConn i q.got) := by
      rcases (by omega : i = 0 ∨ i = 1) with rfl | rfl
      · exact ⟨0, (conn_received (carries .lfEnded) _ _ hs hm [] _ _ rfl 0 rfl 0 _ q hq hcr 0 k hk (by decide +kernel)).1⟩
      · exact ⟨1, (conn_received (carries .lfEnded) _ _ hs hm [_] [] _ rfl 1 (by decide +kernel) 0 _ q hq hcr 1 k hk (by decide +kernel)).1⟩
    obtain ⟨n, hE⟩ := hE
    obtain ⟨m, hmem, hmd⟩ := each_mem hE d hd
    have e : sent demoManySent = [demoLine, demoLine] := rfl
    rw [e] at hmem
    have : m = demoLine := by simpa using List.mem_of_mem_drop (List.mem_of_mem_take hmem)
    rwa [this] at hmd
  have hfst : ∀ x ∈ q.got, x.1 < 2 := by
    obtain ⟨q', hq', -, -, -, -, -, -, h⟩ := demoManyReceived_run
    rw [hq] at hq'
    cases hq'
    exact h
  intro x hx
  exact key x.1 (hfst x hx) x.2 (by
    unfold ofConn
    exact List.mem_filterMap.mpr ⟨x, hx, by simp⟩)

/-- The same, with the messages of the program. -/
def swapped : Sender.Event → Sender.Event
  | .send _ => .send demoRelayed
  | e => e

theorem swapped_step (s : Sender.State) (e : Sender.Event) (h : ∀ m, e = .send m → m = demoLine) : Sender.step .lfEnded s (swapped e) = Sender.step .lfEnded s e := by
  cases e with
  | send m =>
    have := h m rfl
    subst this
    simp only [swapped, Sender.step, demoRelayed_marshal]
  | _ => rfl

theorem swapped_fails (e : Sender.Event) : fails (swapped e) = fails e := by cases e <;> rfl

theorem swapped_runner (e : Sender.Event) (h : Spec.isRunner e = true) : Spec.isRunner (swapped e) = true := by
  cases e <;> first | exact h | (simp [swapped, Spec.isRunner] at h ⊢)

theorem sent_swapped (es : List Sender.Event) : sent (es.map swapped) = (sent es).map fun _ => demoRelayed := by
  induction es with
  | nil => rfl
  | cons e es ih => cases e <;> simp [swapped, sent, ih]

theorem past_swapped (ev : Nat → Option Sender.Event) (n : Nat) : past (fun n => (ev n).map swapped) n = (past ev n).map swapped := by
  unfold past
  rw [List.map_filterMap]

theorem each_const {R : Nat × Tok.Delivered → Message → Prop} {m : Message} : ∀ (l : List (Nat × Tok.Delivered)) (n : Nat), n ≤ l.length →
    (∀ x ∈ l, R x m) → Each R (l.take n) (List.replicate n m)
  | _, 0, _, _ => by simp; exact .nil
  | [], n + 1, h, _ => by simp at h
  | x :: l, n + 1, h, hx => by
    rw [List.take_succ_cons, List.replicate_succ]
    exact .cons (hx x (by simp)) (each_const l n (by simpa using h) fun y hy => hx y (by simp [hy]))

theorem forwards_demo {got : List (Nat × Tok.Delivered)} {ms : List Message} (h : ∀ x ∈ got, IsReceived demoLine x.2) (hm : ∀ m ∈ ms, m = demoRelayed)
    (hl : ms.length ≤ got.length) : Forwards [] got ms := by
  have e : ms = List.replicate ms.length demoRelayed := List.eq_replicate_iff.mpr ⟨rfl, hm⟩
  unfold Forwards
  generalize ms.length = n at *
  rw [e]
  exact each_const got n hl fun x hx => demoRelayed_writable (h x hx)

theorem mem_sent {m : Message} : ∀ {es : List Sender.Event}, Sender.Event.send m ∈ es → m ∈ sent es
  | e :: es, h => by
    rcases List.mem_cons.mp h with rfl | h
    · simp [sent]
    · have := mem_sent h
      cases e <;> simp [sent, this]

theorem againForever_sent (n : Nat) (h : 11 ≤ n) : sent (past (lassoEv againForever 28 5) n) = [demoLine, demoLine] := by
  induction n with
  | zero => omega
  | succ n ih =>
    rcases Nat.eq_or_lt_of_le h with e | h'
    · rw [← e]; rfl
    · have hn : 11 ≤ n := by omega
      rw [past_succ, sent_append, ih hn]
      have hi : 11 ≤ lasso 28 5 n := by unfold lasso; split <;> omega
      have hi' := (lasso_succ 28 5 n (by omega)).1
      have hall : ∀ i, i < 33 → 11 ≤ i → sent (againForever[i]?).toList = [] := by decide +kernel
      unfold lassoEv
      rw [hall _ hi' hi, List.append_nil]

/-- The execution of the example of C100, twice, one behind the other: both messages are returned by the second receiver. -/
example : ∃ m1 k1 m2 k2, Each IsReceived [demoLine, demoLine]
    ((receivedOver id k1 (labelled (Recv.finSt .lfEnded 0 demoManyReceived m1).got (receivedOver id k2 (Recv.finSt .lfEnded 0 demoManyReceived m2).got))).take 2) := by
  obtain ⟨h1, h2, h3, h4, h5, h6, h7, h8, h9, g1, g2, g3, g4, g5, g6, g7⟩ := againForever_meets
  obtain ⟨q, hq, c1, c2, c3, c4, c5, c6, -⟩ := demoManyReceived_run
  have hcut : ∀ n, CutsBetween (frames .lfEnded (past (lassoEv againForever 28 5) n)) (lassoSt .lfEnded againForever 28 5 n).conns := by
    intro n
    refine cuts_of_clean (Sender.history_past h1 n) ?_
    intro nb x hx
    simp only [past, List.mem_filterMap] at hx
    obtain ⟨k, _, hk⟩ := hx
    exact h7 k nb x hk
  have hx2 : SenderExec .lfEnded (fun n => (lassoEv againForever 28 5 n).map swapped) (lassoSt .lfEnded againForever 28 5) := by
    refine ⟨h1.start, ?_, ?_⟩
    · intro n e he
      simp only [Option.map_eq_some_iff] at he
      obtain ⟨e', he', rfl⟩ := he
      rw [swapped_step, h1.event n e' he']
      rintro m rfl
      refine h9 (n + 1) m (mem_sent ?_)
      simp only [past, List.mem_filterMap, List.mem_range]
      exact ⟨n, by omega, he'⟩
    · intro n he
      exact h1.nothing n (by simpa using he)
  have hgot9 : ∀ n, ∀ x ∈ (Recv.finSt .lfEnded 0 demoManyReceived n).got, IsReceived demoLine x.2 := by
    intro n x hx
    have hq9 : (Recv.finSt .lfEnded 0 demoManyReceived (max n 9)) = q := Recv.fin_end hq (by simp [demoManyReceived]; omega)
    have := (got_exec g1 (Nat.le_max_left n 9)).subset hx
    rw [hq9] at this
    exact demoMany_is hq c1 c4 x this
  have hsent2 : ∀ n, ∀ m ∈ sent (past (fun n => (lassoEv againForever 28 5 n).map swapped) n), m = demoRelayed := by
    intro n m hm
    rw [past_swapped, sent_swapped] at hm
    simp only [List.mem_map] at hm
    exact hm.choose_spec.2.symm
  have hle : ∀ n, (sent (past (fun n => (lassoEv againForever 28 5 n).map swapped) n)).length ≤ 2 := by
    intro n
    rw [past_swapped, sent_swapped, List.length_map]
    rcases Nat.le_total n 11 with h | h
    · have := sent_past_prefix (lassoEv againForever 28 5) h
      have := this.length_le
      rw [h8] at this
      exact this
    · rw [againForever_sent n h]
      decide
  have hlen : (Recv.finSt .lfEnded 0 demoManyReceived 9).got.length = 2 := by
    rw [Recv.fin_end hq (by simp [demoManyReceived])]
    exact c6
  have hrep : ∀ n, ∀ m ∈ sent (past (lassoEv againForever 28 5) n), Travels .lfEnded m ∧ Reproduces [] m := by
    intro n m hm
    rw [h9 n m hm]
    exact ⟨demoLine_travels, C106_unregistered .lfEnded _ demoLine_travels⟩
  have := C106_eventually_partial .lfEnded .lfEnded [] (lassoEv againForever 28 5) (lassoSt .lfEnded againForever 28 5) h1 h2 h3 h4 h5 h6 hcut hrep
    0 _ _ g1 g2 g3 g4 id g5 g7 (fun n x hx => ⟨demoLine, demoLine_travels, C106_unregistered .lfEnded _ demoLine_travels, hgot9 n x hx⟩)
    (fun n => (lassoEv againForever 28 5 n).map swapped) (lassoSt .lfEnded againForever 28 5) hx2
    (fun n => ⟨9, forwards_demo (hgot9 9) (hsent2 n) (by rw [hlen]; exact hle n)⟩)
    (fun n1 => ⟨11, by
      rw [past_swapped, sent_swapped, List.length_map, h8]
      have := (got_exec g1 (Nat.le_max_left n1 9)).length_le
      have hq9 : (Recv.finSt .lfEnded 0 demoManyReceived (max n1 9)) = Recv.finSt .lfEnded 0 demoManyReceived 9 :=
        (Recv.fin_end hq (by simp [demoManyReceived]; omega)).trans (Recv.fin_end hq (by simp [demoManyReceived])).symm
      rw [hq9, hlen] at this
      exact this⟩)
    ?_ h3 ?_ h5 h6 ?_ 0 _ _ g1 g2 g3 g4 id g5 g7 11
  · rw [h8] at this
    exact this
  · intro n
    obtain ⟨m, hm, h⟩ := h2 n
    refine ⟨m, hm, ?_⟩
    rcases h with ⟨e, he, hr⟩ | h
    · exact .inl ⟨swapped e, by simp [he], swapped_runner e hr⟩
    · exact .inr h
  · obtain ⟨N, hN⟩ := h4
    refine ⟨N, fun n hn e he => ?_⟩
    simp only [Option.map_eq_some_iff] at he
    obtain ⟨e', he', rfl⟩ := he
    rw [swapped_fails]
    exact hN n hn e' he'
  · intro n
    refine cuts_of_clean (Sender.history_past hx2 n) ?_
    intro nb x hx
    simp only [past, List.mem_filterMap, Option.map_eq_some_iff] at hx
    obtain ⟨k, _, e, hk, he⟩ := hx
    cases e with
    | write nb' x' =>
      simp only [swapped, Sender.Event.write.injEq] at he
      obtain ⟨rfl, rfl⟩ := he
      exact h7 k _ _ hk
    | _ => simp [swapped] at he

/-- The finite histories of `C106_complete_partial` (and, with the first connections, of `C106_in_order_partial`). -/
example : ∃ (s : Sender.State) (q : Recv.State), History .lfEnded demoManySent s ∧ CutsBetween (frames .lfEnded demoManySent) s.conns ∧
    (∀ m ∈ sent demoManySent, Travels .lfEnded m ∧ Reproduces [] m) ∧ (frames .lfEnded demoManySent).flatten <+: wire s ∧
    Recv.run .lfEnded 0 Recv.init demoManyReceived = some q ∧ q.crashed = false ∧
    (∀ (j : Nat) (c : Sender.Conn), s.conns[j]? = some c → ∃ k, q.conns[id j]? = some k ∧
      arrived (readsOf (id j) demoManyReceived) = c.writes.flatten ∧ k.pending = [] ∧ ofConn (id j) q.pipeline = []) ∧
    (∀ x ∈ q.got, ∃ m, Travels .lfEnded m ∧ Reproduces [] m ∧ IsReceived m x.2) ∧
    History .lfEnded (demoManySent.map swapped) s ∧ Forwards [] q.got (sent (demoManySent.map swapped)) ∧
    (sent (demoManySent.map swapped)).length = q.got.length ∧ CutsBetween (frames .lfEnded (demoManySent.map swapped)) s.conns ∧
    (frames .lfEnded (demoManySent.map swapped)).flatten <+: wire s ∧
    Each IsReceived [demoLine, demoLine] (receivedOver id 2 (labelled q.got (receivedOver id 2 q.got))) := by
  obtain ⟨q, hq, c1, c2, c3, c4, c5, c6, -⟩ := demoManyReceived_run
  have hs : History .lfEnded demoManySent ⟨[], [⟨[demoLineFrame, []], false⟩, ⟨[demoLineFrame], false⟩], true, false, [.write 0], false, false, false, false, .select⟩ := by
    decide +kernel
  have hs2 : History .lfEnded (demoManySent.map swapped) ⟨[], [⟨[demoLineFrame, []], false⟩, ⟨[demoLineFrame], false⟩], true, false, [.write 0], false, false, false, false, .select⟩ := by
    decide +kernel
  have hc : ∀ nb x, Sender.Event.write nb (some x) ∈ demoManySent → nb = 0 := by
    intro nb x h
    simp only [demoManySent, List.mem_cons, List.not_mem_nil, or_false, Sender.Event.write.injEq, reduceCtorEq, false_or, and_false] at h
    exact h.1
  have hc2 : ∀ nb x, Sender.Event.write nb (some x) ∈ demoManySent.map swapped → nb = 0 := by
    intro nb x h
    simp only [demoManySent, List.map_cons, List.map_nil, swapped, List.mem_cons, List.not_mem_nil, or_false, Sender.Event.write.injEq, reduceCtorEq, false_or, and_false] at h
    exact h.1
  have hm : ∀ m ∈ sent demoManySent, Travels .lfEnded m ∧ Reproduces [] m := by
    intro m hm
    have e : sent demoManySent = [demoLine, demoLine] := rfl
    rw [e] at hm
    have : m = demoLine := by simpa using hm
    subst this
    exact ⟨demoLine_travels, C106_unregistered .lfEnded _ demoLine_travels⟩
  have hgot := demoMany_is hq c1 c4
  have hlen : q.got.length = 2 := c6
  have hf : ∀ (j : Nat) (c : Sender.Conn), [(⟨[demoLineFrame, []], false⟩ : Sender.Conn), ⟨[demoLineFrame], false⟩][j]? = some c → ∃ k, q.conns[id j]? = some k ∧
      arrived (readsOf (id j) demoManyReceived) = c.writes.flatten ∧ k.pending = [] ∧ ofConn (id j) q.pipeline = [] := by
    intro j c hj
    have hj2 : j < 2 := by
      have := (List.getElem?_eq_some_iff.mp hj).1
      simpa using this
    refine ⟨q.conns[j]'(by omega), (List.getElem?_eq_getElem (by omega) : q.conns[j]? = _), ?_, (c5 _ (List.getElem_mem _)).1, by rw [c2]; rfl⟩
    rcases (by omega : j = 0 ∨ j = 1) with rfl | rfl
    · simp only [List.getElem?_cons_zero, Option.some.injEq] at hj
      subst hj
      decide +kernel
    · simp only [List.getElem?_cons_succ, List.getElem?_cons_zero, Option.some.injEq] at hj
      subst hj
      decide +kernel
  have hfwd : Forwards [] q.got (sent (demoManySent.map swapped)) := by
    refine forwards_demo hgot ?_ (by rw [hlen]; decide)
    intro m hm
    rw [sent_swapped] at hm
    simp only [List.mem_map] at hm
    exact hm.choose_spec.2.symm
  have hgot' : ∀ x ∈ q.got, ∃ m, Travels .lfEnded m ∧ Reproduces [] m ∧ IsReceived m x.2 :=
    fun x hx => ⟨demoLine, demoLine_travels, C106_unregistered .lfEnded _ demoLine_travels, hgot x hx⟩
  have hall : (frames .lfEnded demoManySent).flatten <+: wire ⟨[], [⟨[demoLineFrame, []], false⟩, ⟨[demoLineFrame], false⟩], true, false, [.write 0], false, false, false, false, .select⟩ := by
    decide +kernel
  have hall2 : (frames .lfEnded (demoManySent.map swapped)).flatten <+: wire ⟨[], [⟨[demoLineFrame, []], false⟩, ⟨[demoLineFrame], false⟩], true, false, [.write 0], false, false, false, false, .select⟩ := by
    decide +kernel
  exact ⟨_, q, hs, cuts_of_clean hs hc, hm, hall, hq, c1, hf, hgot', hs2, hfwd, by rw [hlen]; rfl, cuts_of_clean hs2 hc2, hall2,
    C106_complete_partial .lfEnded .lfEnded [] _ _ hs (cuts_of_clean hs hc) hm hall 0 _ q hq c1 id hf hgot' _ _ hs2 hfwd (by rw [hlen]; rfl)
      (cuts_of_clean hs2 hc2) hall2 0 _ q hq c1 id hf⟩

/-- Two programs one behind the other. -/
example {d d' : Tok.Delivered} (h : IsReceived demoLine d) (h' : IsReceived demoRelayed d') : RelayedAs [[], []] demoLine demoRelayed := by
  refine .hop (regs := [[]]) (.hop (regs := []) .here h (demoRelayed_writable h)) h' (demoRelayed_writable ?_)
  obtain ⟨w, g1, _, _, _, _, g6⟩ := C106_hop_partial [] demoLine d h (travels_valid demoLine_travels) (C106_unregistered .lfEnded _ demoLine_travels)
  rw [demoRelayed_writable h] at g1
  simp only [Out.ret.injEq] at g1
  subst g1
  exact g6 d' h'

/-- `C106_package_partial` for the message of the example of C53: a `TimeQuality` value and another element. -/
example : Reproduces [genericSDID b!"x@1", tqSDID] demoMsg := by
  refine C106_package_partial demoMsg _ (exampleMsg_sd _) _ (by simp) ?_ ?_
  · intro i hi x hx
    simp only [List.mem_cons, List.not_mem_nil, or_false] at hi hx
    have h12 : 12 ≤ (elementText x.1 x.2).length := by rcases hx with rfl | rfl <;> decide +kernel
    rcases hi with rfl | rfl
    · exact .inr ⟨b!"x@1", by decide +kernel, rfl, by simp; omega⟩
    · exact .inl ⟨rfl, h12⟩
  · intro v hv
    simp only [demoMsg, exampleMsg, List.mem_cons, List.not_mem_nil, or_false] at hv
    rcases hv with rfl | rfl
    · refine .inr ?_
      intro b t hb ht
      have h1 : (SD.unknown b!"x@1" [(b!"a", b!"1"), (b!"b", b!"\\]")]).marshal = .ret (.ok b!"[x@1 a=\"1\" b=\"\\]\"]") := by decide +kernel
      rw [h1] at hb
      simp only [Out.ret.injEq, Except.ok.injEq] at hb
      subst hb
      have := (tqFound_reads _ [] (.tq t)).mpr ⟨t, ht, rfl⟩
      have h2 : tqFound ⟨b!"[x@1 a=\"1\" b=\"\\]\"]", []⟩ = .ret none := by rfl
      rw [h2] at this
      simp at this
    · exact .inl ⟨_, rfl, by simp⟩

/-- A message that travels and has been received. -/
theorem received_one {m : Message} {b : Bytes} (hI : Intact m) (hm : m.marshal = .ret (.ok b)) (hb : b.length < 2 ^ 62) :
    ∃ p, parse (some (.exact (Transport.rfc5425.encode b))) (some .rfc5425) false = .ret (p, some (.exact []), none) ∧ IsReceived m ⟨0, p, none⟩ := by
  obtain ⟨b', els, hb', hels, hf, h20⟩ := transmissible_frame hI
  rw [hm] at hb'
  simp only [Out.ret.injEq, Except.ok.injEq] at hb'
  subst hb'
  obtain ⟨p, e, g1, g2⟩ := parse_5425_conveys b [] [] false hb (by rw [List.append_nil]; exact h20)
  have := (g2.message hf).1
  subst this
  rw [List.append_nil] at g1
  exact ⟨p, g1, conveys_isReceived hI hm (d := ⟨0, p, none⟩) g2⟩

theorem intact_tq (ps : List (Bytes × Bytes)) (hne : ps ≠ []) (hps : ∀ p ∈ ps, IsName p.1 ∧ ∃ c : UInt8, p.2 = [c] ∧ c ≠ 34 ∧ c ≠ 92 ∧ c ≠ 93) :
    Intact (Message.empty.addSD [.unknown b!"timeQuality" ps]) := by
  refine ⟨by constructor <;> (simp only [Message.addSD, Message.empty]; decide +kernel), by constructor <;> (simp only [Message.addSD, Message.empty]; decide +kernel),
    ⟨[(b!"timeQuality", ps)], ?_, ?_⟩, ?_⟩
  · show [(Out.ret (Except.ok (unknownMarshal _ _)) : Res Bytes)] = _
    rw [unknownMarshal_eq]; rfl
  · intro x hx
    simp only [List.mem_singleton] at hx
    subst hx
    refine ⟨wellFormed_of_names (by decide +kernel : IsName b!"timeQuality") ?_, hne⟩
    intro p hp
    obtain ⟨h1, c, h2, h3, h4, h5⟩ := hps p hp
    rw [h2]
    exact ⟨h1, .byte h3 h4 h5 .nil⟩
  · intro _; exact freeText_plain (by simp [Message.addSD, Message.empty])

theorem readsAs_tq {b : Bytes} {t : TimeQuality} (h : tqFound ⟨b, []⟩ = .ret (some (.tq t))) (fol : Bytes) : registryFound [tqSDID] ⟨b, fol⟩ = .ret (some (.tq t)) := by
  have : tqFound ⟨b, fol⟩ = .ret (some (.tq t)) := (tqFound_reads _ _ _).mpr ((tqFound_reads _ _ _).mp h)
  show (match tqFound ⟨b, fol⟩ with
    | .ret (some sd) => Out.ret (some sd)
    | .ret none => registryFound [] ⟨b, fol⟩
    | .panic => .panic
    | .hang => .hang) = _
  rw [this]

/-- **C106, why partial.** With the `timequality` package imported by the program in the middle, there are messages that were sent
and received, and that it does not forward. It panics in `Send` because of one of them (the accuracy is "0"). Another one
(the time zone is not known) it sends as an element without parameters, and whoever receives this gets an error and no message. -/
theorem C106_timequality_violated :
    (∃ m d w, Travels .rfc5425 m ∧ IsReceived m d ∧ d.msg.writable [tqSDID] = .ret w ∧ w.marshal = .panic) ∧
    (∃ m d w b, Travels .rfc5425 m ∧ IsReceived m d ∧ d.msg.writable [tqSDID] = .ret w ∧ w.marshal = .ret (.ok b) ∧
      ∃ e, parse (some (.exact (Transport.rfc5425.encode b))) (some .rfc5425) false = .ret (MsgImm.zero, some (.exact []), some e)) := by
  have size : ∀ {m : Message} {b : Bytes}, m.marshal = .ret (.ok b) → b.length < 2 ^ 62 → ∀ b', m.marshal = .ret (.ok b') → b'.length < 2 ^ 62 := by
    intro m b h1 h2 b' h3
    rw [h1] at h3
    simp only [Out.ret.injEq, Except.ok.injEq] at h3
    rwa [← h3]
  refine ⟨?_, ?_⟩
  · have hI := intact_tq [(b!"tzKnown", b!"1"), (b!"isSynced", b!"1"), (b!"syncAccuracy", b!"0")] (by simp) (by
      intro p hp
      simp only [List.mem_cons, List.not_mem_nil, or_false] at hp
      rcases hp with rfl | rfl | rfl <;> exact ⟨by decide +kernel, _, rfl, by decide, by decide, by decide⟩)
    have hm : (Message.empty.addSD [.unknown b!"timeQuality" [(b!"tzKnown", b!"1"), (b!"isSynced", b!"1"), (b!"syncAccuracy", b!"0")]]).marshal =
        .ret (.ok b!"<0>1 1970-01-01T00:00:00Z - - - - [timeQuality tzKnown=\"1\" isSynced=\"1\" syncAccuracy=\"0\"]") := by decide +kernel
    obtain ⟨p, h1, h2⟩ := received_one hI hm (by decide)
    have hr : ReadAs [tqSDID] (.unknown b!"timeQuality" [(b!"tzKnown", b!"1"), (b!"isSynced", b!"1"), (b!"syncAccuracy", b!"0")]) (.tq ⟨true, true, some 0⟩) :=
      ⟨b!"[timeQuality tzKnown=\"1\" isSynced=\"1\" syncAccuracy=\"0\"]", by decide +kernel, fun fol => readsAs_tq (by rfl) fol⟩
    have hsd := C99_registered _ _ h2 [tqSDID] [.tq ⟨true, true, some 0⟩] (.cons hr .nil)
    refine ⟨_, _, ⟨0, Time.microseconds .epoch, b!"-", b!"-", b!"-", b!"-", [.tq ⟨true, true, some 0⟩], []⟩, ⟨hI, size (b := _) hm (by decide)⟩, h2, ?_, ?_⟩
    · unfold MsgImm.writable
      rw [h2.priority, h2.timeStamp, h2.hostname, h2.appName, h2.procID, h2.msgID, hsd, h2.text]
      rfl
    · rfl
  · have hI := intact_tq [(b!"tzKnown", b!"0")] (by simp) (by
      intro p hp
      simp only [List.mem_cons, List.not_mem_nil, or_false] at hp
      subst hp
      exact ⟨by decide +kernel, _, rfl, by decide, by decide, by decide⟩)
    have hm : (Message.empty.addSD [.unknown b!"timeQuality" [(b!"tzKnown", b!"0")]]).marshal =
        .ret (.ok b!"<0>1 1970-01-01T00:00:00Z - - - - [timeQuality tzKnown=\"0\"]") := by decide +kernel
    obtain ⟨p, h1, h2⟩ := received_one hI hm (by decide)
    have hr : ReadAs [tqSDID] (.unknown b!"timeQuality" [(b!"tzKnown", b!"0")]) (.tq ⟨false, false, none⟩) :=
      ⟨b!"[timeQuality tzKnown=\"0\"]", by decide +kernel, fun fol => readsAs_tq (by rfl) fol⟩
    have hsd := C99_registered _ _ h2 [tqSDID] [.tq ⟨false, false, none⟩] (.cons hr .nil)
    refine ⟨_, _, ⟨0, Time.microseconds .epoch, b!"-", b!"-", b!"-", b!"-", [.tq ⟨false, false, none⟩], []⟩, b!"<0>1 1970-01-01T00:00:00Z - - - - [timeQuality]", ⟨hI, size (b := _) hm (by decide)⟩, h2, ?_, ?_, ?_⟩
    · unfold MsgImm.writable
      rw [h2.priority, h2.timeStamp, h2.hostname, h2.appName, h2.procID, h2.msgID, hsd, h2.text]
      rfl
    · decide +kernel
    · exact ⟨.posNotFound, by decide +kernel⟩

end Syslog5424
