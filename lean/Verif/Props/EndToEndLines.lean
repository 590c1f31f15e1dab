import Verif.Props.EndToEnd
import Verif.Props.Injection
/-! # C72: from `Send` to `Receive` with the LF and NUL transports -/
namespace Syslog5424
open Spec

/-- A message that can be transmitted as a line: its bytes. -/
theorem line_of_message {c : UInt8} (hc : c = 10 ∨ c = 0) {m : Message} (h : TransmissibleLine c m) :
    Line c (wireFields m) m.message ∧ m.marshal = .ret (.ok (lineText (wireFields m, m.message))) ∧ Intact m := by
  have hsd : sdListMarshal m.sd = .ret (.ok b!"-") := by rw [h.sd]; rfl
  have hb := marshal_eq m _ hsd
  rw [if_neg h.text] at hb
  have hn := C19_terminated_partial m h.header c hc _ _ hb hsd h.clean (by rcases hc with rfl | rfl <;> decide)
  refine ⟨⟨rfl, ?_, h.clean⟩, by rw [hb]; simp [lineText], ⟨h.header, h.time, ⟨[], by rw [h.sd]; rfl, by simp⟩, fun h' => absurd h.sd h'⟩⟩
  intro f hf
  refine ⟨h.header.raw f hf, fun hm => hn ?_⟩
  simp only [List.mem_append, headerText, List.mem_flatMap]
  exact .inl (.inl ⟨f, hf, .inl hm⟩)

/-- The payloads of a history of such messages. -/
theorem lines_payloads {t : Transport} {c : UInt8} (ht : t = .lfEnded ∧ c = 10 ∨ t = .zeroEnded ∧ c = 0) (es : List Sender.Event)
    (h : ∀ m ∈ sent es, TransmissibleLine c m) :
    ∃ ls, Each (fun m l => m.marshal = .ret (.ok (lineText l))) (sent es) ls ∧ (frames t es).flatten = stream t (ls.map lineText) ∧
      ∀ l ∈ ls, Line c l.1 l.2 := by
  have hc : c = 10 ∨ c = 0 := by rcases ht with ⟨_, h⟩ | ⟨_, h⟩ <;> simp [h]
  induction es with
  | nil => exact ⟨[], .nil, rfl, by simp⟩
  | cons e es ih =>
    cases e with
    | send m =>
      obtain ⟨h1, h2, _⟩ := line_of_message hc (h m (by simp [sent]))
      obtain ⟨ls, g1, g2, g3⟩ := ih (fun x hx => h x (by simp [sent, hx]))
      refine ⟨(wireFields m, m.message) :: ls, .cons h2 g1, ?_, ?_⟩
      · simp [frames, h2, g2, stream]
      · intro l hl
        rcases List.mem_cons.mp hl with rfl | hl
        · exact h1
        · exact g3 l hl
    | endCall => exact ih h
    | recvErr => exact ih h
    | tick => exact ih h
    | seeEnd => exact ih h
    | connect => exact ih h
    | write => exact ih h
    | tau => exact ih h

theorem each_map_right {α β γ : Type} {R : α → β → Prop} {f : γ → β} {as : List α} {cs : List γ}
    (h : Each (fun a c => R a (f c)) as cs) : Each R as (cs.map f) := by
  induction h with
  | nil => exact .nil
  | cons hr _ ih => exact .cons hr ih

theorem each_length {α β : Type} {R : α → β → Prop} {as : List α} {bs : List β} (h : Each R as bs) : bs.length = as.length := by
  induction h with
  | nil => rfl
  | cons _ _ ih => simp [ih]

/-- **C72.** At every moment at which the receiver has not crashed: if what has arrived on a
connection of the receiver is a part of what was written to the first connection of the sender, then what `Receive` has
returned from this connection are the messages that were sent, from the first one on, in order, each exactly once, with
all their fields and no error; an early end of file does not matter. -/
theorem C72_in_order_partial (t : Transport) (z : UInt8) (ht : t = .lfEnded ∧ z = 10 ∨ t = .zeroEnded ∧ z = 0)
    (es : List Sender.Event) (s : Sender.State) (hs : History t es s) (hmsgs : ∀ m ∈ sent es, TransmissibleLine z m)
    (c : Sender.Conn) (r : List Sender.Conn) (hc : s.conns = c :: r)
    (lenQueue : Nat) (er : List Recv.Event) (q : Recv.State) (hq : Recv.run t lenQueue Recv.init er = some q) (hcr : q.crashed = false)
    (i : Nat) (k : Recv.Conn) (hi : q.conns[i]? = some k) (hwire : arrived (readsOf i er) <+: c.writes.flatten) :
    Each IsReceived ((sent es).take (ofConn i q.got).length) (ofConn i q.got) := by
  have hz : z = 10 ∨ z = 0 := by rcases ht with ⟨_, h⟩ | ⟨_, h⟩ <;> simp [h]
  obtain ⟨ls, h1, h2, h3⟩ := lines_payloads ht es hmsgs
  have hpre : arrived (readsOf i er) <+: stream t (ls.map lineText) := by
    rw [← h2]
    refine hwire.trans (List.IsPrefix.trans ?_ (C34_prefix t es s hs))
    unfold wire
    rw [hc, List.map_cons, List.flatten_cons]
    exact List.prefix_append _ _
  obtain ⟨b, tok, g1, g2⟩ := C44_order _ _ er q hq hcr i k hi
  have hcut : NoCutAfterDash z ls (readsOf i er) := by
    refine Classical.byContradiction fun hn => ?_
    have := (C41_crashes_exactly t z ht ls h3 _ _ g1 hpre).mpr hn
    cases this
  obtain ⟨b', tok', n, g3, _, g4, g5⟩ := C41_reassembly_partial t z ht ls h3 _ _ g1 hpre hcut
  simp only [Out.ret.injEq, Prod.mk.injEq] at g3
  obtain ⟨_, rfl⟩ := g3
  have key := each_trans (S := IsReceived) (each_take (each_map_right (R := fun (m : Message) p => m.marshal = .ret (.ok p)) h1) n) g5
    (fun m p d hm hp hd => conveys_isReceived (line_of_message hz (hmsgs m (List.mem_of_mem_take hm))).2.2 hp hd)
  rw [← g2, List.append_assoc] at key
  have e := each_length key
  have := each_prefix key
  rw [List.take_take] at this
  simp only [List.length_append, List.length_take] at e
  rwa [Nat.min_eq_left (by omega)] at this

/-- **C72.** When everything that was sent was written to one connection, has arrived, and nothing
is left to be received, and the receiver has not crashed, `Receive` has returned every message that was sent, in order,
exactly once, with all its fields and no error. -/
theorem C72_complete_partial (t : Transport) (z : UInt8) (ht : t = .lfEnded ∧ z = 10 ∨ t = .zeroEnded ∧ z = 0)
    (es : List Sender.Event) (s : Sender.State) (hs : History t es s) (hmsgs : ∀ m ∈ sent es, TransmissibleLine z m)
    (c : Sender.Conn) (hc : s.conns = [c]) (hall : (frames t es).flatten <+: wire s)
    (lenQueue : Nat) (er : List Recv.Event) (q : Recv.State) (hq : Recv.run t lenQueue Recv.init er = some q) (hcr : q.crashed = false)
    (i : Nat) (k : Recv.Conn) (hi : q.conns[i]? = some k)
    (hwire : arrived (readsOf i er) = c.writes.flatten) (hp : k.pending = []) (hpipe : ofConn i q.pipeline = []) :
    Each IsReceived (sent es) (ofConn i q.got) := by
  have main := C72_in_order_partial t z ht es s hs hmsgs c [] hc lenQueue er q hq hcr i k hi (by rw [hwire]; exact List.prefix_refl _)
  obtain ⟨ls, h1, h2, h3⟩ := lines_payloads ht es hmsgs
  have hw : c.writes.flatten = (frames t es).flatten := by
    have e : wire s = c.writes.flatten := by unfold wire; rw [hc]; simp
    rw [← e]
    exact List.IsPrefix.eq_of_length (C34_prefix t es s hs) (Nat.le_antisymm (C34_prefix t es s hs).length_le hall.length_le)
  have hst : arrived (readsOf i er) = stream t (ls.map lineText) := by rw [hwire, hw, h2]
  obtain ⟨b, tok, g1, g2⟩ := C44_order _ _ er q hq hcr i k hi
  have hcut : NoCutAfterDash z ls (readsOf i er) := by
    refine Classical.byContradiction fun hn => ?_
    have := (C41_crashes_exactly t z ht ls h3 _ _ g1 (by rw [hst]; exact List.prefix_refl _)).mpr hn
    cases this
  obtain ⟨b', tok', n, g3, _, g4, g5⟩ := C41_reassembly_partial t z ht ls h3 _ _ g1 (by rw [hst]; exact List.prefix_refl _) hcut
  simp only [Out.ret.injEq, Prod.mk.injEq] at g3
  obtain ⟨_, rfl⟩ := g3
  rw [hp, hpipe, List.append_nil, List.append_nil] at g2
  have e1 := each_length h1
  have hn : (ls.map lineText).length ≤ n := by
    apply g4.2.2 _ (Nat.le_refl _)
    rw [List.take_length, hst]
    exact List.prefix_refl _
  have e2 := each_length g5
  rw [← g2, List.take_of_length_le hn, List.length_map, e1] at e2
  rwa [e2, List.take_length] at main

/-- **C72.** In particular: after `End` has returned, every message sent before it on a sender that
needed one connection only has been received, as soon as everything that was written has arrived and been received by a
receiver that did not crash. -/
theorem C72_end_partial (t : Transport) (z : UInt8) (ht : t = .lfEnded ∧ z = 10 ∨ t = .zeroEnded ∧ z = 0)
    (before after : List Sender.Event) (s : Sender.State) (hs : History t (before ++ .endCall :: after) s)
    (hret : s.endCompleted = true) (hal : s.crashed = false) (hno : sent after = [])
    (hmsgs : ∀ m ∈ sent before, TransmissibleLine z m) (c : Sender.Conn) (hc : s.conns = [c])
    (lenQueue : Nat) (er : List Recv.Event) (q : Recv.State) (hq : Recv.run t lenQueue Recv.init er = some q) (hcr : q.crashed = false)
    (i : Nat) (k : Recv.Conn) (hi : q.conns[i]? = some k)
    (hwire : arrived (readsOf i er) = c.writes.flatten) (hp : k.pending = []) (hpipe : ofConn i q.pipeline = []) :
    Each IsReceived (sent before) (ofConn i q.got) := by
  have e : sent (before ++ .endCall :: after) = sent before := by rw [sent_append]; simp [sent, hno]
  have hf : frames t (before ++ .endCall :: after) = frames t before := by
    rw [Sender.frames_append]
    have : ∀ es : List Sender.Event, sent es = [] → frames t es = [] := by
      intro es
      induction es with
      | nil => intro _; rfl
      | cons x es ih => cases x <;> simp [sent, frames] <;> exact ih
    have h2 := this (.endCall :: after) (by simp [sent, hno])
    rw [h2, List.append_nil]
  rw [← e]
  refine C72_complete_partial t z ht _ s hs (by rw [e]; exact hmsgs) c hc ?_ lenQueue er q hq hcr i k hi hwire hp hpipe
  rw [hf]
  exact C35_end_flushes t before after s hs hret hal

/-! The hypotheses are met by a message that is sent, flushed by `End`, arrives in two parts, and is received. -/

/-- The message. -/
def demoLine : Message := { exampleMsg b!"An \xc3\xa9vent" with sd := [] }

/-- Its frame. -/
def demoLineFrame : Bytes := Transport.lfEnded.encode (match demoLine.marshal with | .ret (.ok b) => b | _ => [])

/-- The sender. -/
def demoLineSent : List Sender.Event :=
  [.send demoLine, .endCall, .seeEnd, .tau, .tau, .connect none, .tau, .tau, .write demoLineFrame.length none, .tau, .tau, .tau, .tau, .tau, .tau]

/-- The receiver. -/
def demoLineReceived : List Recv.Event :=
  [.tau, .acceptOk, .read 0 { data := demoLineFrame.take 50 }, .read 0 { data := demoLineFrame.drop 50 }, .handoff 0]

example : TransmissibleLine 10 demoLine where
  header := ⟨(exampleMsg_good b!"").prio, (exampleMsg_good b!"").host, (exampleMsg_good b!"").app, (exampleMsg_good b!"").pid, (exampleMsg_good b!"").mid⟩
  time := by constructor <;> (simp only [demoLine, exampleMsg, Message.createWhole]; decide +kernel)
  sd := rfl
  text := by decide +kernel
  clean := by decide +kernel

example : ∃ s c q k, History .lfEnded demoLineSent s ∧ s.endCompleted = true ∧ s.crashed = false ∧ s.conns = [c] ∧
    Recv.run .lfEnded 0 Recv.init demoLineReceived = some q ∧ q.crashed = false ∧ q.conns[0]? = some k ∧
    k.pending = [] ∧ ofConn 0 q.pipeline = [] ∧ arrived (readsOf 0 demoLineReceived) = c.writes.flatten ∧ (ofConn 0 q.got).length = 1 := by
  have h : (match Recv.run .lfEnded 0 Recv.init demoLineReceived with
      | some q => !q.crashed && q.pipeline.isEmpty && decide ((ofConn 0 q.got).length = 1) &&
        (match q.conns[0]? with | some k => k.pending.isEmpty | none => false)
      | none => false) = true := by decide +kernel
  cases hq : Recv.run .lfEnded 0 Recv.init demoLineReceived with
  | none => rw [hq] at h; cases h
  | some q =>
    rw [hq] at h
    cases hk : q.conns[0]? with
    | none => simp [hk] at h
    | some k =>
      simp only [hk, Bool.and_eq_true, Bool.not_eq_true', List.isEmpty_iff, decide_eq_true_eq] at h
      refine ⟨⟨[], [⟨[demoLineFrame], true⟩], true, false, [], true, true, false, false, .closeErr⟩, ⟨[demoLineFrame], true⟩, q, k,
        by decide +kernel, rfl, rfl, rfl, rfl, h.1.1.1, hk, h.2, ?_, by decide +kernel, h.1.2⟩
      rw [h.1.1.2]; rfl

end Syslog5424
