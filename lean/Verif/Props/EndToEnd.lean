import Verif.Spec.EndToEnd
import Verif.Props.RoundTrip
import Verif.Props.Sender
import Verif.Props.Receiver
import Verif.Props.Streams
/-! # C53: from `Send` to `Receive` -/
namespace Syslog5424
open Spec

theorem sanitised_valid {n : Nat} {f x : Bytes} (h : ValidField n f) (hx : IsSanitised n f x) : x = f := by
  have h1 := validator_sanitised f n
  rw [validator_id h] at h1
  exact sanitised_unique hx h1

theorem priIs_marshal {p : Int} (h : 0 ≤ p ∧ p ≤ 299) : PriIs (Priority.marshal p) p :=
  (C02_decoder_grammar 0 p _).mp ((C01_round_trip p 0).mpr h)

/-- The bytes of a message that can be transmitted. -/
theorem transmissible_frame {m : Message} (h : Intact m) :
    ∃ b els, m.marshal = .ret (.ok b) ∧ MarshalsTo m.sd els ∧
      Frame b (wireFields m) (els.map fun x => elementText x.1 x.2) (if m.message = [] then none else some (SP :: m.message)) ∧
      20 ≤ (Transport.rfc5425.encode b).length := by
  obtain ⟨els, hels⟩ := h.sd
  obtain ⟨b, idx, txt, hb, hL⟩ := layout_msg h.header hels (fun h1 _ => quiet_text (h.text h1))
  refine ⟨b, els, hb, hels, hL.frame, ?_⟩
  obtain ⟨sd, _, hsd, _⟩ := C25_message_ok m b hb
  have hbe := marshal_eq m sd hsd
  rw [hb] at hbe
  simp only [Out.ret.injEq, Except.ok.injEq] at hbe
  have hr := h.header.raw
  have ne : ∀ f ∈ wireFields m, 1 ≤ f.length := fun f hf => by
    have := (hr f hf).1
    cases f with
    | nil => exact absurd rfl this
    | cons => simp
  obtain ⟨ds, _, hds⟩ := C01_marshal_format m.prio h.header.prio.1 h.header.prio.2
  have hts : 5 ≤ m.timestamp.format.length := by
    unfold Time.format; simp only [List.length_append, List.length_cons, List.length_nil]; omega
  have l1 : 3 ≤ (Priority.marshal m.prio).length := by rw [hds]; simp
  have l2 := h.header.host.1
  have l3 := h.header.app.1
  have l4 := h.header.pid.1
  have l5 := h.header.mid.1
  have hlen : 18 ≤ b.length := by
    rw [hbe]
    simp only [headerText, wireFields, List.flatMap_cons, List.flatMap_nil, List.length_append, List.length_cons, List.length_nil]
    omega
  have hnd : 1 ≤ (natDec b.length).length := by
    have := natDec_ne_nil b.length
    cases hq : natDec b.length with
    | nil => exact absurd hq this
    | cons => simp
  have : (Transport.rfc5425.encode b).length = (natDec b.length).length + 1 + b.length := by
    simp [Transport.encode]; omega
  omega

/-- The identifiers that read every value as `f` says read the elements the values are written as. -/
theorem readAs_elements {reg : List SDID} {f : SD → SD} {sd : List SD} {els : List (Bytes × List (Bytes × Bytes))}
    (h : sd.map SD.marshal = els.map fun x => .ret (.ok (elementText x.1 x.2))) (hf : ∀ v ∈ sd, ReadAs reg v (f v)) :
    let g : Bytes × List (Bytes × Bytes) → SD := fun x => match registryFound reg ⟨elementText x.1 x.2, []⟩ with
      | .ret (some w) => w
      | _ => .unknown [] []
    (∀ x ∈ els, ∀ following : Bytes, registryFound reg ⟨elementText x.1 x.2, following⟩ = .ret (some (g x))) ∧ els.map g = sd.map f := by
  intro g
  induction sd generalizing els with
  | nil => cases els with
    | nil => simp
    | cons => simp at h
  | cons v sd ih => cases els with
    | nil => simp at h
    | cons x els =>
      simp only [List.map_cons, List.cons.injEq] at h
      obtain ⟨i1, i2⟩ := ih h.2 fun w hw => hf w (by simp [hw])
      obtain ⟨b, hb, hr⟩ := hf v (by simp)
      rw [h.1] at hb
      simp only [Out.ret.injEq, Except.ok.injEq] at hb
      subst hb
      have hg : g x = f v := by simp only [g, hr]
      refine ⟨?_, by simp [hg, i2]⟩
      intro y hy r
      rcases List.mem_cons.mp hy with rfl | hy
      · rw [hr, hg]
      · exact i1 y hy r

/-- A decoded message with these bytes, header fields, text and elements is this message. -/
theorem isReceived_of {m : Message} (h : Intact m) {els : List (Bytes × List (Bytes × Bytes))} (hels : MarshalsTo m.sd els)
    {d : Tok.Delivered} (c1 : d.err = none) (c2 : m.marshal = .ret (.ok d.msg.string))
    {pri ts host app pid mid text : Bytes} (hw : wireFields m = [pri, ts, host, app, pid, mid])
    (c3 : ReadsAs d.msg pri ts host app pid mid text) (ht : text = m.message)
    (c4 : ∀ (reg : List SDID) (f : Bytes × List (Bytes × Bytes) → SD),
      (∀ x ∈ els, ∀ following : Bytes, registryFound reg ⟨elementText x.1 x.2, following⟩ = .ret (some (f x))) →
      d.msg.structuredData reg = .ret (els.map f)) : IsReceived m d := by
  simp only [wireFields, List.cons.injEq, and_true] at hw
  obtain ⟨rfl, rfl, rfl, rfl, rfl, rfl⟩ := hw
  obtain ⟨pr, hpr, hpri⟩ := c3.priority
  obtain ⟨x1, g1, g2⟩ := c3.hostname
  obtain ⟨x2, g3, g4⟩ := c3.appName
  obtain ⟨x3, g5, g6⟩ := c3.procID
  obtain ⟨x4, g7, g8⟩ := c3.msgID
  have hp : pr = m.prio := by
    rcases hpri with hp | ⟨hp, _⟩
    · exact priIs_unique hp (priIs_marshal h.header.prio)
    · exact absurd ⟨_, priIs_marshal h.header.prio⟩ hp
  refine ⟨c1, c2, by rw [hpr, hp], ?_, by rw [g1, sanitised_valid h.header.host g2], by rw [g3, sanitised_valid h.header.app g4],
    by rw [g5, sanitised_valid h.header.pid g6], by rw [g7, sanitised_valid h.header.mid g8], by rw [c3.text, ht], ⟨_, c4 [] _ (unregistered hels.2), ?_⟩, ?_⟩
  · rw [c3.timeStamp, C52_format_parse _ h.time]; rfl
  · rw [hels.1, List.map_map]
    apply List.map_congr_left
    intro x _
    show (Out.ret (Except.ok (unknownMarshal x.1 x.2)) : Res Bytes) = _
    rw [unknownMarshal_eq]
  · intro reg f hf
    obtain ⟨h1, h2⟩ := readAs_elements hels.1 hf
    rw [c4 reg _ h1, h2]

/-- What arrives as these bytes is this message. -/
theorem conveys_isReceived {m : Message} (h : Intact m) {b : Bytes} (hb : m.marshal = .ret (.ok b)) {d : Tok.Delivered}
    (hc : Conveys b d.msg d.err) : IsReceived m d := by
  obtain ⟨b', els, hb', hels, hf, _⟩ := transmissible_frame h
  rw [hb] at hb'
  simp only [Out.ret.injEq, Except.ok.injEq] at hb'
  subst hb'
  obtain ⟨c1, c2, c3⟩ := hc.message hf
  refine isReceived_of h hels c1 (by rw [c2]; exact hb) rfl c3 ?_ (fun reg f hf2 => hc.elements hf rfl reg f hf2)
  split
  · next hm => rw [hm]; rfl
  · rfl

theorem sent_mem {es : List Sender.Event} {m : Message} (h : m ∈ sent es) : .send m ∈ es := by
  induction es with
  | nil => simp [sent] at h
  | cons e es ih =>
    cases e <;> simp only [sent, List.mem_cons] at h ⊢
    case send m' =>
      rcases h with rfl | h
      · exact .inl rfl
      · exact .inr (ih h)
    all_goals exact .inr (ih h)

theorem sent_append (es es' : List Sender.Event) : sent (es ++ es') = sent es ++ sent es' := by
  induction es with
  | nil => rfl
  | cons e es ih => cases e <;> simp [sent, ih]

/-- The payloads of a history in which every message can be transmitted. -/
theorem payloads (es : List Sender.Event) (h : ∀ m ∈ sent es, Transmissible m) :
    ∃ ps, Each (fun m p => m.marshal = .ret (.ok p)) (sent es) ps ∧ frames .rfc5425 es = ps.map Transport.rfc5425.encode ∧
      ∀ p ∈ ps, p.length < 2 ^ 62 ∧ 20 ≤ (Transport.rfc5425.encode p).length := by
  induction es with
  | nil => exact ⟨[], .nil, rfl, by simp⟩
  | cons e es ih =>
    cases e with
    | send m =>
      have hm := h m (by simp [sent])
      obtain ⟨ps, h1, h2, h3⟩ := ih (fun x hx => h x (by simp [sent, hx]))
      obtain ⟨b, els, hb, _, _, h20⟩ := transmissible_frame hm.toIntact
      refine ⟨b :: ps, .cons hb h1, ?_, ?_⟩
      · simp [frames, hb, h2]
      · intro p hp
        rcases List.mem_cons.mp hp with rfl | hp
        · exact ⟨hm.size _ hb, h20⟩
        · exact h3 p hp
    | endCall => exact ih h
    | recvErr => exact ih h
    | tick => exact ih h
    | seeEnd => exact ih h
    | connect => exact ih h
    | write => exact ih h
    | tau => exact ih h

theorem each_trans {α β γ : Type} {R : α → β → Prop} {Q : β → γ → Prop} {S : α → γ → Prop} {as : List α} {bs : List β} {cs : List γ}
    (h1 : Each R as bs) (h2 : Each Q bs cs) (hS : ∀ a b c, a ∈ as → R a b → Q b c → S a c) : Each S as cs := by
  induction h1 generalizing cs with
  | nil => cases h2; exact .nil
  | cons hr _ ih =>
    cases h2 with
    | cons hq hqs => exact .cons (hS _ _ _ (by simp) hr hq) (ih hqs fun a b c ha => hS a b c (by simp [ha]))

theorem each_take {α β : Type} {R : α → β → Prop} {as : List α} {bs : List β} (h : Each R as bs) (k : Nat) : Each R (as.take k) (bs.take k) := by
  induction h generalizing k with
  | nil => simp; exact .nil
  | cons hr _ ih =>
    cases k with
    | zero => exact .nil
    | succ k => exact .cons hr (ih k)

theorem each_prefix {α β : Type} {R : α → β → Prop} {as : List α} {xs ys : List β} (h : Each R as (xs ++ ys)) : Each R (as.take xs.length) xs := by
  have := each_take h xs.length
  rwa [List.take_left] at this

theorem stream_map (ps : List Bytes) : stream .rfc5425 ps = (ps.map Transport.rfc5425.encode).flatten := by
  simp [stream, List.flatMap_def]

/-- **C53.** At every moment, whatever the senders, the flushes, the failures, the queue of the receiver, the segmentation
and what else happens on the receiver: if what has arrived on a connection of the receiver is a part of what was written
to the first connection of the sender, then what `Receive` has returned from this connection are the messages that were sent, from the first one on, in order, each exactly once, with all their fields
and no error. -/
theorem C53_in_order_partial (es : List Sender.Event) (s : Sender.State) (hs : History .rfc5425 es s) (hmsgs : ∀ m ∈ sent es, Transmissible m)
    (c : Sender.Conn) (r : List Sender.Conn) (hc : s.conns = c :: r)
    (lenQueue : Nat) (er : List Recv.Event) (q : Recv.State) (hq : Recv.run .rfc5425 lenQueue Recv.init er = some q) (hcr : q.crashed = false)
    (i : Nat) (k : Recv.Conn) (hi : q.conns[i]? = some k)
    (hwire : arrived (readsOf i er) <+: c.writes.flatten) :
    Each IsReceived ((sent es).take (ofConn i q.got).length) (ofConn i q.got) := by
  obtain ⟨ps, h1, h2, h3⟩ := payloads es hmsgs
  have hpre : arrived (readsOf i er) <+: stream .rfc5425 ps := by
    rw [stream_map, ← h2]
    refine hwire.trans (List.IsPrefix.trans ?_ (C34_prefix .rfc5425 es s hs))
    unfold wire
    rw [hc, List.map_cons, List.flatten_cons]
    exact List.prefix_append _ _
  obtain ⟨b, tok, g1, g2⟩ := C44_order _ _ er q hq hcr i k hi
  obtain ⟨n, g4, g5⟩ := C40_returned ps h3 _ _ _ g1 hpre
  have key := each_trans (S := IsReceived) (each_take h1 n) g5 (fun m p d hm hp hd => conveys_isReceived (hmsgs m (List.mem_of_mem_take hm)).toIntact hp hd)
  rw [← g2, List.append_assoc] at key
  have := each_prefix key
  rw [List.take_take] at this
  have hle : (ofConn i q.got).length ≤ n := by
    have hl : ∀ {α β : Type} {R : α → β → Prop} {as : List α} {bs : List β}, Each R as bs → bs.length = as.length := by
      intro α β R as bs h
      induction h with
      | nil => rfl
      | cons _ _ ih => simp [ih]
    have e := hl key
    simp only [List.length_append, List.length_take] at e
    omega
  rwa [Nat.min_eq_left hle] at this

/-- **C53.** When everything that was sent was written to one connection, has arrived, and nothing is left to be received,
`Receive` has returned every message that was sent, in order, exactly once, with all its fields and no error. -/
theorem C53_complete_partial (es : List Sender.Event) (s : Sender.State) (hs : History .rfc5425 es s) (hmsgs : ∀ m ∈ sent es, Transmissible m)
    (c : Sender.Conn) (hc : s.conns = [c]) (hall : (frames .rfc5425 es).flatten <+: wire s)
    (lenQueue : Nat) (er : List Recv.Event) (q : Recv.State) (hq : Recv.run .rfc5425 lenQueue Recv.init er = some q) (hcr : q.crashed = false)
    (i : Nat) (k : Recv.Conn) (hi : q.conns[i]? = some k)
    (hwire : arrived (readsOf i er) = c.writes.flatten) (hp : k.pending = []) (hpipe : ofConn i q.pipeline = []) :
    Each IsReceived (sent es) (ofConn i q.got) := by
  obtain ⟨ps, h1, h2, h3⟩ := payloads es hmsgs
  have hw : c.writes.flatten = (frames .rfc5425 es).flatten := by
    have e : wire s = c.writes.flatten := by unfold wire; rw [hc]; simp
    rw [← e]
    exact List.IsPrefix.eq_of_length (C34_prefix .rfc5425 es s hs) (Nat.le_antisymm (C34_prefix .rfc5425 es s hs).length_le hall.length_le)
  have := C53_receive_partial lenQueue er q hq hcr i k hi hp hpipe ps h3 (by rw [hwire, hw, stream_map, h2])
  exact each_trans h1 this (fun m p d hm hp hd => conveys_isReceived (hmsgs m hm).toIntact hp hd)

/-- **C53.** In particular: after `End` has returned, every message sent before it on a sender that needed one connection
only has been received, as soon as everything that was written has arrived and been received. -/
theorem C53_end_partial (before after : List Sender.Event) (s : Sender.State) (hs : History .rfc5425 (before ++ .endCall :: after) s)
    (hret : s.endCompleted = true) (hal : s.crashed = false) (hno : sent after = [])
    (hmsgs : ∀ m ∈ sent before, Transmissible m) (c : Sender.Conn) (hc : s.conns = [c])
    (lenQueue : Nat) (er : List Recv.Event) (q : Recv.State) (hq : Recv.run .rfc5425 lenQueue Recv.init er = some q) (hcr : q.crashed = false)
    (i : Nat) (k : Recv.Conn) (hi : q.conns[i]? = some k)
    (hwire : arrived (readsOf i er) = c.writes.flatten) (hp : k.pending = []) (hpipe : ofConn i q.pipeline = []) :
    Each IsReceived (sent before) (ofConn i q.got) := by
  have e : sent (before ++ .endCall :: after) = sent before := by rw [sent_append]; simp [sent, hno]
  have hf : frames .rfc5425 (before ++ .endCall :: after) = frames .rfc5425 before := by
    rw [Sender.frames_append]
    have : ∀ es : List Sender.Event, sent es = [] → frames .rfc5425 es = [] := by
      intro es
      induction es with
      | nil => intro _; rfl
      | cons x es ih => cases x <;> simp [sent, frames] <;> exact ih
    have h2 := this (.endCall :: after) (by simp [sent, hno])
    rw [h2, List.append_nil]
  rw [← e]
  refine C53_complete_partial _ s hs (by rw [e]; exact hmsgs) c hc ?_ lenQueue er q hq hcr i k hi hwire hp hpipe
  rw [hf]
  exact C35_end_flushes .rfc5425 before after s hs hret hal

/-! The hypotheses are met by a message with structured data, sent, flushed by `End`, arriving in two parts, and
received. -/

/-- The message. -/
def demoMsg : Message := exampleMsg b!"An \xc3\xa9vent"

/-- Its frame. -/
def demoFrame : Bytes := Transport.rfc5425.encode (match demoMsg.marshal with | .ret (.ok b) => b | _ => [])

/-- The sender. -/
def demoSent : List Sender.Event :=
  [.send demoMsg, .endCall, .seeEnd, .tau, .tau, .connect none, .tau, .tau, .write 153 none, .tau, .tau, .tau, .tau, .tau, .tau]

/-- The receiver. -/
def demoReceived : List Recv.Event :=
  [.tau, .acceptOk, .read 0 { data := demoFrame.take 50 }, .read 0 { data := demoFrame.drop 50 }, .handoff 0]

example : Transmissible demoMsg where
  header := exampleMsg_good _
  time := by constructor <;> (simp only [demoMsg, exampleMsg, Message.createWhole]; decide +kernel)
  sd := ⟨_, exampleMsg_sd _⟩
  text := fun _ => freeText_plain (by simp only [demoMsg, exampleMsg]; decide +kernel)
  size := by
    have h : (match demoMsg.marshal with | .ret (.ok b) => decide (b.length < 2 ^ 62) | _ => true) = true := by decide +kernel
    intro b hb
    rw [hb] at h
    simpa using h

example : ∃ s c q k, History .rfc5425 demoSent s ∧ s.endCompleted = true ∧ s.crashed = false ∧ s.conns = [c] ∧
    Recv.run .rfc5425 0 Recv.init demoReceived = some q ∧ q.crashed = false ∧ q.conns[0]? = some k ∧
    k.pending = [] ∧ ofConn 0 q.pipeline = [] ∧ arrived (readsOf 0 demoReceived) = c.writes.flatten ∧ (ofConn 0 q.got).length = 1 := by
  have h : (match Recv.run .rfc5425 0 Recv.init demoReceived with
      | some q => !q.crashed && q.pipeline.isEmpty && decide ((ofConn 0 q.got).length = 1) &&
        (match q.conns[0]? with | some k => k.pending.isEmpty | none => false)
      | none => false) = true := by decide +kernel
  cases hq : Recv.run .rfc5425 0 Recv.init demoReceived with
  | none => rw [hq] at h; cases h
  | some q =>
    rw [hq] at h
    cases hk : q.conns[0]? with
    | none => simp [hk] at h
    | some k =>
      simp only [hk, Bool.and_eq_true, Bool.not_eq_true', List.isEmpty_iff, decide_eq_true_eq] at h
      refine ⟨⟨[], [⟨[demoFrame], true⟩], true, false, [], true, true, false, false, .closeErr⟩, ⟨[demoFrame], true⟩, q, k,
        by decide +kernel, rfl, rfl, rfl, rfl, h.1.1.1, hk, h.2, ?_, by decide +kernel, h.1.2⟩
      rw [h.1.1.2]; rfl

end Syslog5424
