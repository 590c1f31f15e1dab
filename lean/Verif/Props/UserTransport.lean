import Verif.Lemmas.UserTransport
import Verif.Props.EndToEnd
/-! # Property C86: transports written by the user -/
namespace Syslog5424
open Spec Tok

/-! ## the model with a transport of the user is the model of the built-in transports -/

theorem toUser_sdLoop (t : Transport) (eof : Bool) (rest : Option Slice) (f : Option Err) (data : Slice) (fuel : Nat) :
    ∀ i start index, t.toUser.sdLoop eof rest f data fuel i start index = sdLoop (some t) eof rest f data fuel i start index := by
  induction fuel with
  | zero => intro i start index; rfl
  | succ fuel ih =>
    intro i start index
    simp only [UserTransport.sdLoop, sdLoop, ih]
    rfl

/-- **C86.** The built-in transports are not special: `Parse`, with one of them given as an implementation of the
interface, does what it does. -/
theorem C86_builtin_parse (t : Transport) (data : Option Slice) (atEOF : Bool) :
    t.toUser.parse data atEOF = parse data (some t) atEOF := by
  simp only [UserTransport.parse, parse, UserTransport.parseBody, parseBody, toUser_sdLoop]
  rfl

theorem toUser_parseLoop (t : Transport) (eof : Bool) (fuel : Nat) : ∀ data out,
    t.toUser.parseLoop eof fuel data out = parseLoop t eof fuel data out := by
  induction fuel with
  | zero => intro data out; rfl
  | succ fuel ih =>
    intro data out
    simp only [UserTransport.parseLoop, parseLoop, C86_builtin_parse, ih]
    rfl

theorem toUser_step (t : Transport) (s : State) (r : Read) : t.toUser.step s r = step t s r := by
  simp only [UserTransport.step, step, toUser_parseLoop]

/-- **C86.** So do the connections of a receiver. -/
theorem C86_builtin_run (t : Transport) (s : State) (reads : List Read) (o : Out (Bool × State)) :
    t.toUser.Run s reads o ↔ Run t s reads o := by
  constructor
  · intro h
    induction h with
    | nil => exact .nil
    | cons h1 h2 _ ih => exact .cons h1 (by rw [← toUser_step]; exact h2) ih
    | last h1 h2 h3 => exact .last h1 (by rw [← toUser_step]; exact h2) h3
  · intro h
    induction h with
    | nil => exact .nil
    | cons h1 h2 _ ih => exact .cons h1 (by rw [toUser_step]; exact h2) ih
    | last h1 h2 h3 => exact .last h1 (by rw [toUser_step]; exact h2) h3

/-- **C86.** So does a sender. -/
theorem C86_builtin_sender (t : Transport) (es : List Sender.Event) : ∀ s, t.toUser.senderRun s es = Sender.run t s es := by
  induction es with
  | nil => intro s; rfl
  | cons e r ih =>
    intro s
    have : t.toUser.senderStep s e = Sender.step t s e := by
      obtain ⟨queue, conns, output, locked, errs, endAsked, endCompleted, errClosed, crashed, pc⟩ := s
      cases e with
      | connect r => cases pc <;> cases r <;> rfl
      | _ => cases pc <;> rfl
    simp only [UserTransport.senderRun, Sender.run, this]
    congr 1
    funext s'
    exact ih s'

/-! ## what a transport of the user gets -/

/-- **C86.** Whatever the transport: when it says that more bytes are needed, `Parse` returns nothing; when it finds a
payload and a rest, `Parse` returns this rest, and the message of the payload, or the error that says what is wrong with
it (the error of the transport, if it reports one). It does not panic. -/
theorem C86_parse (u : UserTransport) (data : Slice) (atEOF : Bool) :
    (u.prefixStrip (some data) atEOF = .ret (none, none, none) → u.parse (some data) atEOF = .ret (MsgImm.zero, none, none)) ∧
    (∀ d r f, u.prefixStrip (some data) atEOF = .ret (d, some r, f) →
      ∃ m e, u.parse (some data) atEOF = .ret (m, some r, e) ∧ DeliveredFor ⟨data.vis, (Slice.ofNil d).vis, f⟩ m e) := by
  constructor
  · intro h
    unfold UserTransport.parse
    rw [h]
    rfl
  · intro d r f h
    obtain ⟨m, e, h1, h2⟩ := parseBody_delivered (Slice.ofNil d) r f atEOF data.vis
    exact ⟨m, e, by rw [user_parse_rest h, h1], h2⟩

/-- **C86 is violated** for errors: an error that `PrefixStrip` reports with a payload that has the shape of a message is
lost, `Parse` returns the message with no error. -/
theorem C86_fault_violated (u : UserTransport) (data : Slice) (atEOF : Bool) (d r : Slice) (f : Err)
    (h : u.prefixStrip (some data) atEOF = .ret (some d, some r, some f)) {pri ts host app pid mid : Bytes} {xs : List Bytes}
    {o : Option Bytes} (hf : Frame d.vis [pri, ts, host, app, pid, mid] xs o) :
    ∃ m, u.parse (some data) atEOF = .ret (m, some r, none) := by
  obtain ⟨m, e, h1, h2⟩ := (C86_parse u data atEOF).2 _ _ _ h
  obtain ⟨h3, _⟩ := (h2.message (Or.inr ⟨_, _, _, hf⟩)).message hf
  exact ⟨m, by rw [h1, h3]⟩

/-- How `Parse` cuts a stream with a self-delimiting transport. -/
theorem cuts_user {u : UserTransport} {ok : Packet → Prop} (hu : SelfDelimiting u ok) (ps : List Packet) (hps : ∀ p ∈ ps, ok p)
    (eof : Bool) : UCuts u Packet.wire (fun p b => p.wire.length ≤ b.length) (fun _ _ => eof = false) DeliveredFor eof ps := by
  refine ⟨?_, ?_, fun _ _ _ h => h, fun p hp => hu.nonempty p (hps p hp)⟩
  · intro p hp suffix spare _
    obtain ⟨d, h1, h2⟩ := hu.whole p (hps p hp) suffix spare eof
    obtain ⟨m, e, h3, h4⟩ := parseBody_delivered (Slice.ofNil d) ⟨suffix, spare⟩ p.fault eof p.wire
    refine ⟨m, e, by rw [user_parse_rest h2, h3], ?_⟩
    rw [h1] at h4
    exact h4
  · intro p hp b spare hb hcmp hr hsafe
    subst hsafe
    have hlt : b.length < p.wire.length := by omega
    have hpre : b <+: p.wire := by
      rcases hcmp with h | h
      · exact h
      · have := h.length_le; omega
    refine ⟨MsgImm.zero, none, (C86_parse u _ _).1 (hu.part p (hps p hp) b spare hb hpre ?_)⟩
    intro e
    rw [e] at hlt
    omega

/-- **C86.** A receiver with any self-delimiting transport, whatever the cut of the stream into reads: it does not crash,
and at every point it has delivered exactly the frames that have arrived entirely (`k` is the greatest number of frames in
the bytes received), in order, each once, as they should be. It returns at the end of file. -/
theorem C86_reassembly (u : UserTransport) (ok : Packet → Prop) (hu : SelfDelimiting u ok) (ps : List Packet)
    (hps : ∀ p ∈ ps, ok p) (reads : List Read) (o : Out (Bool × State)) (hrun : u.Run init reads o)
    (hst : arrived reads <+: ps.flatMap Packet.wire)
    (heof : (∃ r ∈ reads, r.err = .eof ∧ r.data ≠ []) → arrived reads = ps.flatMap Packet.wire) :
    ∃ b s k, o = .ret (b, s) ∧ (b = true ↔ ∀ r ∈ reads, r.err ≠ .eof) ∧
      Greatest id (ps.map Packet.wire) (arrived reads) k ∧
      Each (fun p d => DeliveredFor p d.msg d.err) (ps.take k) s.out := by
  obtain ⟨b, s, h1, h2, h3, k, _, h4⟩ := user_run_flow (enc := Packet.wire) (Q := DeliveredFor)
    (ready := fun p b => p.wire.length ≤ b.length) hrun (as := ps) (R := []) (k := 0)
    room_init flow_init (by simpa using hst) (by
      intro pre r post e h0
      refine ⟨_, cuts_user hu ps hps _, ?_⟩
      intro k a b ha hb hne hr
      refine decide_eq_false fun he => ?_
      have hpost := user_run_eof_last hrun pre r post e he
      subst hpost
      have hall := heof ⟨r, by rw [e]; simp, he, h0⟩
      rw [← e, List.nil_append, hall] at hb
      have hst : ps.flatMap Packet.wire = (ps.take k).flatMap Packet.wire ++ (ps.drop k).flatMap Packet.wire := by
        rw [← List.flatMap_append, List.take_append_drop]
      rw [hst] at hb
      have hb := List.append_cancel_left hb
      have hdk : ps.drop k = a :: ps.drop (k + 1) := by
        obtain ⟨hlt, ha⟩ := List.getElem?_eq_some_iff.mp ha
        rw [← ha, List.drop_eq_getElem_cons hlt]
      rw [hdk, List.flatMap_cons] at hb
      have hlen := congrArg List.length hb
      simp only [List.length_append] at hlen
      exact hr (by omega))
  rw [List.nil_append] at h4
  have hmap : ∀ j, ((ps.map Packet.wire).take j).flatMap id = (ps.take j).flatMap Packet.wire := by
    intro j
    rw [← List.map_take, List.flatMap_map]
    rfl
  refine ⟨b, s, k, h1, h3, ⟨by simpa using h4.le, ?_, ?_⟩, h4.out⟩
  · rw [hmap]
    conv => rhs; rw [h4.bytes]
    exact List.prefix_append _ _
  · intro j hj hpre
    rw [hmap] at hpre
    simp only [List.length_map] at hj
    rcases Nat.lt_or_ge k j with hlt | hge
    · exfalso
      have hpk : (ps.take (k + 1)).flatMap Packet.wire <+: arrived reads := by
        exact (flatMap_take_prefix _ _ hlt).trans hpre
      have hk : k < ps.length := by omega
      rw [h4.bytes, List.take_add_one, List.flatMap_append] at hpk
      have := (List.prefix_append_right_inj _).mp hpk
      rw [List.getElem?_eq_getElem hk] at this
      simp only [Option.toList_some, List.flatMap_cons, List.flatMap_nil, List.append_nil] at this
      have hlen := this.length_le
      have hpos := List.length_pos_iff.mpr (hu.nonempty ps[k] (hps _ (List.getElem_mem hk)))
      rcases h4.wait with h | ⟨a, ha, hr⟩
      · rw [h, List.length_nil] at hlen; omega
      · rw [List.getElem?_eq_getElem hk, Option.some.injEq] at ha
        subst ha
        exact hr hlen
    · exact hge

/-- **C86.** A sender with any transport: after any history, what was written over all connections, in order, followed by
what is still queued (less what the write in progress has already accepted), is what `Encode` made of the accepted messages,
in the order of the calls of `Send`. -/
theorem C86_sender (u : UserTransport) (es : List Sender.Event) (s : Sender.State) (h : u.senderRun Sender.init es = some s) :
    wire s ++ s.queue.flatten.drop (match s.pc with | .write _ _ n => n | _ => 0) = (userFrames u es).flatten := by
  have h0 : Sender.Inv [] Sender.init := Sender.inv_history (t := .lfEnded) (es := []) rfl
  have := (user_inv_run h0 h).data
  unfold wire
  rw [List.nil_append] at this
  rw [← this]
  unfold Sender.wireOf
  congr 2

theorem user_payloads (u : UserTransport) (es : List Sender.Event) (h : ∀ m ∈ sent es, Intact m) :
    ∃ ps, Each (fun m p => m.marshal = .ret (.ok p)) (sent es) ps ∧ userFrames u es = ps.map u.encode := by
  induction es with
  | nil => exact ⟨[], .nil, rfl⟩
  | cons e es ih =>
    cases e with
    | send m =>
      have hm := h m (by simp [sent])
      obtain ⟨ps, h1, h2⟩ := ih (fun x hx => h x (by simp [sent, hx]))
      obtain ⟨b, els, hb, _⟩ := transmissible_frame hm
      exact ⟨b :: ps, .cons hb h1, by simp [userFrames, hb, h2]⟩
    | endCall => exact ih h
    | recvErr => exact ih h
    | tick => exact ih h
    | seeEnd => exact ih h
    | connect => exact ih h
    | write => exact ih h
    | tau => exact ih h

/-- **C86.** From a sender to a receiver with the same self-delimiting transport (the frames of `Encode` are frames of the
contract): whatever was written to the first connection and arrives, cut anywhere, the messages that come out are the
messages sent, in order, each once, with all their fields; every message whose frame has arrived entirely is there. -/
theorem C86_end_to_end (u : UserTransport) (hu : SelfDelimiting u fun p => p.wire = u.encode p.payload ∧ p.fault = none)
    (es : List Sender.Event) (s : Sender.State) (hs : u.senderRun Sender.init es = some s) (hmsgs : ∀ m ∈ sent es, Intact m)
    (c : Sender.Conn) (r : List Sender.Conn) (hc : s.conns = c :: r)
    (reads : List Read) (o : Out (Bool × State)) (hrun : u.Run init reads o)
    (hwire : arrived reads <+: c.writes.flatten) (heof : ∀ r ∈ reads, r.err = .eof → r.data = []) :
    ∃ b q k, o = .ret (b, q) ∧ Greatest id (userFrames u es) (arrived reads) k ∧ Each IsReceived ((sent es).take k) q.out := by
  obtain ⟨ps, h1, h2⟩ := user_payloads u es hmsgs
  have hfl : (ps.map fun p => (⟨u.encode p, p, none⟩ : Packet)).map Packet.wire = userFrames u es := by
    rw [h2, List.map_map]; rfl
  have hpre : arrived reads <+: (ps.map fun p => (⟨u.encode p, p, none⟩ : Packet)).flatMap Packet.wire := by
    rw [List.flatMap_def, hfl]
    refine hwire.trans (List.IsPrefix.trans ?_ ⟨_, C86_sender u es s hs⟩)
    unfold wire
    rw [hc, List.map_cons, List.flatten_cons]
    exact List.prefix_append _ _
  obtain ⟨b, q, k, g1, _, g2, g3⟩ := C86_reassembly u _ hu _ (by
    intro p hp
    obtain ⟨x, _, rfl⟩ := List.mem_map.mp hp
    exact ⟨rfl, rfl⟩) reads o hrun hpre (by
    rintro ⟨r, hr, he, hd⟩
    exact absurd (heof r hr he) hd)
  rw [hfl] at g2
  refine ⟨b, q, k, g1, g2, ?_⟩
  have h3 : Each (fun p d => Conveys p d.msg d.err) (ps.take k) q.out := by
    rw [← List.map_take] at g3
    have : ∀ {l : List Bytes} {ds : List Delivered},
        Each (fun p d => DeliveredFor p d.msg d.err) (l.map fun p => (⟨u.encode p, p, none⟩ : Packet)) ds →
        Each (fun p d => Conveys p d.msg d.err) l ds := by
      intro l
      induction l with
      | nil => intro ds h; cases h; exact .nil
      | cons a l ih => intro ds h; cases h with | cons h h' => exact .cons (h.message (Or.inl rfl)) (ih h')
    exact this g3
  exact each_trans (each_take h1 k) h3 (fun m p d hm hp hd => conveys_isReceived (hmsgs m (List.mem_of_mem_take hm)) hp hd)

/-- **C86.** The contract is needed: with a transport that gives back its buffer as the rest, the loop of the receiver never
ends, whatever bounds the number of its iterations. -/
theorem C86_needs_progress (u : UserTransport) (eof : Bool) (data : Slice) (h0 : data.len ≠ 0) (d : Option Slice) (f : Option Err)
    (h : u.prefixStrip (some data) eof = .ret (d, some data, f)) (fuel : Nat) : ∀ out, u.parseLoop eof fuel data out = .hang := by
  induction fuel with
  | zero => intro out; rfl
  | succ fuel ih =>
    intro out
    obtain ⟨m, e, h1, _⟩ := (C86_parse u data eof).2 _ _ _ h
    unfold UserTransport.parseLoop
    rw [h1]
    simp only [Out.ret_bind]
    rw [if_neg h0]
    exact ih _

/-! ## transports that meet the contract -/

/-- **C86.** RFC 5425 meets the contract for the frames of at least 20 bytes. -/
theorem C86_rfc5425 : SelfDelimiting Transport.rfc5425.toUser fun p =>
    p.wire = Transport.rfc5425.encode p.payload ∧ p.fault = none ∧ p.payload.length < 2 ^ 62 ∧ 20 ≤ p.wire.length := by
  refine ⟨?_, ?_, ?_⟩
  · rintro ⟨w, p, f⟩ ⟨_, _, _, h⟩ e
    simp only at e h
    rw [e] at h
    simp at h
  · rintro ⟨w, p, f⟩ ⟨e1, e2, h1, h2⟩ more spare eof
    simp only at e1 e2 h1 h2 ⊢
    subst e1 e2
    refine ⟨some ⟨p, more ++ spare⟩, rfl, ?_⟩
    have e : Transport.rfc5425.encode p ++ more = natDec p.length ++ SP :: (p ++ more) := by simp [Transport.encode]
    simp only [Transport.toUser]
    rw [e]
    refine prefixStrip_5425_frame p more spare eof (by omega) ?_
    rw [← e]
    simp only [List.length_append] at h2 ⊢
    omega
  · rintro ⟨w, p, f⟩ ⟨e1, e2, h1, h2⟩ b spare hb hpre hne
    simp only at e1 e2 h1 h2 hpre hne
    subst e1 e2
    have hlt : b.length < (Transport.rfc5425.encode p).length := by
      rcases Nat.lt_or_ge b.length (Transport.rfc5425.encode p).length with h | h
      · exact h
      · exact absurd (hpre.eq_of_length (Nat.le_antisymm hpre.length_le h)) hne
    simp only [Transport.toUser]
    rw [List.prefix_iff_eq_take.mp hpre]
    exact C17_incomplete_waits p spare b.length (by omega) hlt

/-- The decoder of the transport below: the payload and what follows the first of the two zeros. -/
def unstuff : Bytes → Option (Bytes × Bytes)
  | [] => none
  | [_] => none
  | x :: y :: r => if x = 0 then some ([], y :: r) else (unstuff r).map fun q => (y :: q.1, q.2)

/-- A transport of a user: every byte is preceded by 1, the frame ends with two zeros. The payload is a new slice. -/
def stuffing : UserTransport where
  encode d := d.flatMap (fun b => [1, b]) ++ [0, 0]
  prefixStrip b _ := match b with
    | none => .ret (none, none, none)
    | some b => match unstuff b.vis with
      | none => .ret (none, none, none)
      | some (d, r) => .ret (some (Slice.exact d), some ⟨r.drop 1, b.spare⟩, none)
  suffixStrip b _ := .ret (b, none, none)

theorem unstuff_whole (d more : Bytes) : unstuff (d.flatMap (fun b => [1, b]) ++ [0, 0] ++ more) = some (d, 0 :: more) := by
  induction d with
  | nil => rfl
  | cons a d ih =>
    simp only [List.flatMap_cons, List.cons_append, List.nil_append, unstuff] at ih ⊢
    rw [ih]
    rfl

theorem unstuff_part : ∀ (d b : Bytes), b <+: d.flatMap (fun b => [1, b]) ++ [0, 0] → b ≠ d.flatMap (fun b => [1, b]) ++ [0, 0] →
    unstuff b = none := by
  intro d
  induction d with
  | nil =>
    intro b h hne
    match b with
    | [] => rfl
    | [_] => rfl
    | x :: y :: r =>
      exfalso
      apply hne
      have := h.length_le
      simp at this
      simp only [List.flatMap_nil, List.nil_append] at h ⊢
      exact h.eq_of_length (by simp [this])
  | cons a d ih =>
    intro b h hne
    match b with
    | [] => rfl
    | [_] => rfl
    | x :: y :: r =>
      simp only [List.flatMap_cons, List.cons_append, List.nil_append, List.cons_prefix_cons] at h hne
      obtain ⟨rfl, rfl, h⟩ := h
      simp only [unstuff]
      rw [ih r h (fun e => hne (by rw [e]))]
      rfl

/-- **C86.** This transport meets the contract, for all payloads. -/
theorem C86_stuffing : SelfDelimiting stuffing fun p => p.wire = stuffing.encode p.payload ∧ p.fault = none := by
  refine ⟨?_, ?_, ?_⟩
  · rintro ⟨w, p, f⟩ ⟨e1, _⟩ e
    simp only at e1; subst e1
    simp [stuffing] at e
  · rintro ⟨w, p, f⟩ ⟨e1, e2⟩ more spare eof
    simp only at e1 e2
    subst e1 e2
    exact ⟨some (Slice.exact p), rfl, by simp only [stuffing, unstuff_whole]; rfl⟩
  · rintro ⟨w, p, f⟩ ⟨e1, e2⟩ b spare hb hpre hne
    simp only at e1 e2
    subst e1 e2
    simp only [stuffing] at hpre hne ⊢
    rw [unstuff_part p b hpre hne]

theorem user_run_single {u : UserTransport} {s : State} {r : Read} (hf : r.Fits s) : u.Run s [r] (u.step s r) := by
  cases h : u.step s r with
  | ret x =>
    obtain ⟨b, s'⟩ := x
    cases b with
    | true => exact .cons hf h .nil
    | false => exact .last hf h (by simp)
  | panic => exact .last hf h (by simp)
  | hang => exact .last hf h (by simp)

/-- The frame of the example. -/
def exStuffed : Bytes := stuffing.encode b!"<14>1 1970-01-01T00:00:00Z h a 1 - - x"

/-- The hypotheses of `C86_end_to_end` are met: a message sent through this transport is received. -/
example : ∃ s c b q, stuffing.senderRun Sender.init [.send (exMsg b!"x"), .tick, .tau, .connect none, .tau, .tau,
      .write 78 none] = some s ∧ s.conns = [c] ∧ c.writes.flatten = exStuffed ∧
    stuffing.Run init [{ data := exStuffed }] (.ret (b, q)) ∧ Each IsReceived [exMsg b!"x"] q.out := by
  have hs : stuffing.senderRun Sender.init [.send (exMsg b!"x"), .tick, .tau, .connect none, .tau, .tau, .write 78 none] =
      some ⟨[exStuffed], [⟨[exStuffed], false⟩], true, true, [], false, false, false, false, .write false 1 78⟩ := by decide +kernel
  have hi : ∀ m ∈ [exMsg b!"x"], Intact m := by
    intro m hm
    rw [List.mem_singleton] at hm
    subst hm
    exact ⟨by constructor <;> decide +kernel, by constructor <;> decide +kernel, ⟨[], rfl, by simp⟩, by simp [exMsg, Message.forge]⟩
  have hrun := user_run_single (u := stuffing) (fits_init (r := { data := exStuffed }) (by decide +kernel))
  obtain ⟨b, q, k, g1, g2, g3⟩ := C86_end_to_end stuffing C86_stuffing _ _ hs hi _ [] rfl _ _ hrun
    (by simp [arrived]) (by simp)
  have hk : k = 1 := by
    have h1 := g2.1
    have h2 := g2.2.2 1 (by decide +kernel) (by decide +kernel)
    have h3 : (userFrames stuffing [.send (exMsg b!"x"), .tick, .tau, .connect none, .tau, .tau, .write 78 none]).length = 1 := by decide +kernel
    omega
  subst hk
  rw [g1] at hrun
  exact ⟨_, _, _, q, hs, rfl, by simp, hrun, g3⟩

/-- The hypotheses of `C86_fault_violated` are met. -/
example : ∃ (u : UserTransport) (d r : Slice), u.prefixStrip (some ⟨b!"<34>1 - host su - ID47 - x", []⟩) false = .ret (some d, some r, some (.other 0)) ∧
    Frame d.vis [b!"<34>1", b!"-", b!"host", b!"su", b!"-", b!"ID47"] [] (some b!" x") :=
  ⟨⟨id, fun b _ => .ret (b, some ⟨[], []⟩, some (.other 0)), fun b _ => .ret (b, none, none)⟩, _, _, rfl,
    Frame.dashText (fs := [b!"<34>1", b!"-", b!"host", b!"su", b!"-", b!"ID47"]) (t := b!"x") rfl (by decide +kernel)⟩

end Syslog5424
