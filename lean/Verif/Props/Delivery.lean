import Verif.Lemmas.FairReceiver
import Verif.Props.Liveness
import Verif.Props.EndToEndMany
import Verif.Props.Decoder
/-! # Properties C83, C84: what a receiver does eventually; from `Send` to `Receive`, eventually -/
namespace Syslog5424
open Spec

/-- **C83.** In every endless execution of a receiver, with any number of connections, any queue length and any
interleaving, in which `Receive` keeps being called, the errors are read, nothing crashes, and the goroutine of connection
`i` is served: everything that the reads on this connection decode to, up to any moment, has been returned by `Receive` at
some later moment, in order. -/
theorem C83_received (t : Transport) (lenQueue : Nat) (ev : Nat → Option Recv.Event) (st : Nat → Recv.State)
    (hx : ReceiverExec t lenQueue ev st) (hcons : Consumed t lenQueue ev st) (herr : ErrorsDrained st)
    (hc : ∀ n, (st n).crashed = false) (i : Nat) (hserve : Served t lenQueue i ev st) (n : Nat) (hi : i < (st n).conns.length) :
    ∃ m b tok, n ≤ m ∧ Tok.Run t Tok.init (readsOf i (past ev n)) (.ret (b, tok)) ∧ tok.out <+: ofConn i (st m).got := by
  have hget : (st n).conns[i]? = some (st n).conns[i] := List.getElem?_eq_getElem hi
  obtain ⟨m, hm, h⟩ := Recv.conn_received hx hcons hc herr hserve hget
  obtain ⟨b, tok, h1, h2⟩ := C44_order t lenQueue _ _ (Recv.history_past hx n) (hc n) i _ hget
  refine ⟨m, b, tok, hm, h1, ?_⟩
  rw [← h2]
  exact h

/-- **C83.** With RFC 5425: every payload whose frame has arrived completely is returned by `Receive` at some later moment,
whatever the bytes. -/
theorem C83_frames (lenQueue : Nat) (ev : Nat → Option Recv.Event) (st : Nat → Recv.State)
    (hx : ReceiverExec .rfc5425 lenQueue ev st) (hcons : Consumed .rfc5425 lenQueue ev st) (herr : ErrorsDrained st)
    (hc : ∀ n, (st n).crashed = false) (i : Nat) (hserve : Served .rfc5425 lenQueue i ev st) (n : Nat) (hi : i < (st n).conns.length)
    (ps : List Bytes) (rest : Bytes) (hps : Decodes (arrived (readsOf i (past ev n))) ps rest) :
    ∃ m, n ≤ m ∧ Each (fun p d => Conveys p d.msg d.err) ps ((ofConn i (st m).got).take ps.length) := by
  obtain ⟨m, b, tok, hm, h1, h2⟩ := C83_received _ lenQueue ev st hx hcons herr hc i hserve n hi
  obtain ⟨ps', h3, h4⟩ := C80_decodes _ b tok h1
  obtain ⟨rfl, _⟩ := C80_functional hps h3
  refine ⟨m, hm, ?_⟩
  obtain ⟨r, hr⟩ := h2
  rw [← hr, ← each_length h4, List.take_left]
  exact h4

/-- **C83.** Under the same hypotheses the goroutine of a connection calls `Read` again and again: at some later moment it
is about to read again, unless its loop has returned (at end of file). -/
theorem C83_reads_on (t : Transport) (lenQueue : Nat) (ev : Nat → Option Recv.Event) (st : Nat → Recv.State)
    (hx : ReceiverExec t lenQueue ev st) (hcons : Consumed t lenQueue ev st) (herr : ErrorsDrained st)
    (hc : ∀ n, (st n).crashed = false) (i : Nat) (hserve : Served t lenQueue i ev st) (n : Nat) (hi : i < (st n).conns.length) :
    ∃ m c, n ≤ m ∧ (st m).conns[i]? = some c ∧
      (c.running = true → ∃ s', Recv.step t lenQueue (st m) (.read i ⟨[], [], .none⟩) = some s') ∧
      (c.running = false → c.closed = false → ∃ s', Recv.step t lenQueue (st m) (.close i) = some s') := by
  have hget : (st n).conns[i]? = some (st n).conns[i] := List.getElem?_eq_getElem hi
  obtain ⟨m, hm, c, h1, h2, h3⟩ := Recv.conn_ready hx hcons hc herr hserve hget
  refine ⟨m, c, hm, h1, ?_, ?_⟩
  · intro hr
    have hfit : Tok.Read.Fits ⟨[], [], .none⟩ c.tok := by simp [Tok.Read.Fits]
    simp [Recv.step, hc m, h1, hr, h2, h3, hfit, Tok.step]
  · intro hr hcl
    simp [Recv.step, hc m, h1, hr, h2, h3, hcl]

/-! ## C84 -/

/-- Without a failing write there is one connection at most. -/
theorem one_connection {t : Transport} {ev : Nat → Option Sender.Event} {st : Nat → Sender.State} (hx : SenderExec t ev st)
    (hw : ∀ n nb e, ev n ≠ some (.write nb (some e))) (n : Nat) : wire (st n) = firstBytes (st n) := by
  have key := stays hx (fun s => (s.output = false → s.conns = []) ∧ s.conns.length ≤ 1 ∧ (∀ f, s.pc = .connect f → s.output = false) ∧
      ∀ f e, s.pc ≠ .errWrite f e) 0
    (by rw [hx.start]; simp [Sender.init]) (by
      intro m _ e he ⟨h1, h2, h3, h4⟩
      obtain ⟨_, htr⟩ := Sender.step_tr (hx.event m e he)
      have hadd : ∀ (d : Bytes) (cs : List Sender.Conn), (Sender.addWrite d cs).length = cs.length := by
        intro d cs
        induction cs with
        | nil => rfl
        | cons c r ih =>
          cases r with
          | nil => rfl
          | cons c' r => simp only [Sender.addWrite, List.length_cons] at ih ⊢; omega
      have hcl : ∀ (cs : List Sender.Conn), (Sender.closeLast cs).length = cs.length := by
        intro cs
        induction cs with
        | nil => rfl
        | cons c r ih =>
          cases r with
          | nil => rfl
          | cons c' r => simp only [Sender.closeLast, List.length_cons] at ih ⊢; omega
      generalize st (m + 1) = b at htr
      generalize st m = a at h1 h2 h3 h4 htr
      cases htr
      case writeNobufs => exact absurd he (hw m _ _)
      case writeErr => exact absurd he (hw m _ _)
      case errWrite hpc _ => exact absurd hpc (h4 _ _)
      case connOk f hpc =>
        have := h1 (h3 f hpc)
        refine ⟨by simp, by simp [this], by simp, by simp⟩
      case writeOk f k n x hpc hx =>
        refine ⟨fun h => ?_, by simp only [hadd]; exact h2, by simp, by simp⟩
        have := h1 h
        simp only [this, Sender.addWrite]
      case closeOut hpc ho =>
        refine ⟨fun h => ?_, by simp only [hcl]; exact h2, by simp, by simp⟩
        simp only at h
        rw [ho] at h; cases h
      case errConn f _ _ _ => refine ⟨h1, h2, ?_, ?_⟩ <;> cases f <;> simp [Sender.ret]
      case unlock f _ => refine ⟨h1, h2, ?_, ?_⟩ <;> cases f <;> simp [Sender.ret]
      all_goals (refine ⟨h1, h2, ?_, ?_⟩ <;> simp_all)) n (Nat.zero_le _)
  obtain ⟨_, h2, _, _⟩ := key
  unfold wire firstBytes
  cases hcs : (st n).conns with
  | nil => rfl
  | cons c r =>
    rw [hcs] at h2
    cases r with
    | nil => simp
    | cons _ _ => simp at h2

theorem sent_past_prefix (ev : Nat → Option Sender.Event) {n m : Nat} (h : n ≤ m) : sent (past ev n) <+: sent (past ev m) := by
  obtain ⟨r, hr⟩ := past_prefix ev h
  rw [← hr, sent_append]
  exact List.prefix_append _ _

theorem arrived_past_prefix (i : Nat) (er : Nat → Option Recv.Event) {n m : Nat} (h : n ≤ m) :
    arrived (readsOf i (past er n)) <+: arrived (readsOf i (past er m)) := by
  obtain ⟨r, hr⟩ := past_prefix er h
  rw [← hr, Recv.readsOf_append]
  simp only [arrived, List.flatMap_append]
  exact List.prefix_append _ _

theorem first_prefix {t : Transport} {ev : Nat → Option Sender.Event} {st : Nat → Sender.State} (hx : SenderExec t ev st)
    (hw : ∀ n nb e, ev n ≠ some (.write nb (some e))) {n m : Nat} (h : n ≤ m) : firstBytes (st n) <+: firstBytes (st m) := by
  rw [← one_connection hx hw, ← one_connection hx hw]
  obtain ⟨r, hr⟩ := past_prefix ev h
  have h1 := Sender.history_past hx n
  have h2 := Sender.history_past hx m
  rw [← hr] at h2
  obtain ⟨s1, g1, g2⟩ := Sender.run_split h2
  have : s1 = st n := by
    have h1' : Sender.run t Sender.init (past ev n) = some (st n) := h1
    rw [h1'] at g1
    cases g1
    rfl
  subst this
  exact (C34_monotone t _ _ _ _ h1 g2).2

/-- What the frames of the messages sent up to the moment `n` become, once they are written. -/
theorem delivered {t : Transport} {Good : Message → Prop} (hcar : Carries t Good)
    (ev : Nat → Option Sender.Event) (st : Nat → Sender.State) (hx : SenderExec t ev st)
    (hw : ∀ n nb e, ev n ≠ some (.write nb (some e))) (hmsgs : ∀ n, ∀ m ∈ sent (past ev n), Good m)
    (lenQueue : Nat) (er : Nat → Option Recv.Event) (sr : Nat → Recv.State)
    (hxr : ReceiverExec t lenQueue er sr) (hcons : Consumed t lenQueue er sr) (herr : ErrorsDrained sr)
    (hc : ∀ n, (sr n).crashed = false) (i : Nat) (hserve : Served t lenQueue i er sr) (hi : ∃ n, i < (sr n).conns.length)
    (hlink : Link st i er) (n : Nat) (hwr : ∃ n', n ≤ n' ∧ (frames t (past ev n)).flatten <+: wire (st n')) :
    ∃ m, Each IsReceived (sent (past ev n)) ((ofConn i (sr m).got).take (sent (past ev n)).length) := by
  obtain ⟨n1, hn1, hf⟩ := hwr
  rw [one_connection hx hw] at hf
  obtain ⟨m1, hm1⟩ := hlink.live n1
  obtain ⟨m0, hm0⟩ := hi
  have hlen : i < (sr (max m0 m1)).conns.length := by
    obtain ⟨c', h, _⟩ := Recv.conn_stays hxr hc (List.getElem?_eq_getElem hm0) (Nat.le_max_left m0 m1)
    rcases Nat.lt_or_ge i (sr (max m0 m1)).conns.length with h1 | h1
    · exact h1
    · rw [List.getElem?_eq_none h1] at h; cases h
  obtain ⟨m2, b, tok, _, g1, g2⟩ := C83_received t lenQueue er sr hxr hcons herr hc i hserve _ hlen
  have harr : (frames t (past ev n)).flatten <+: arrived (readsOf i (past er (max m0 m1))) :=
    (hf.trans hm1).trans (arrived_past_prefix i er (Nat.le_max_right _ _))
  obtain ⟨n2, hn2⟩ := hlink.faithful (max m0 m1)
  have hn3 := hn2.trans (first_prefix hx hw (Nat.le_max_right n n2))
  rw [← one_connection hx hw] at hn3
  have hok : ∀ k, ∀ m ∈ sent (past ev k), ∃ b, m.marshal = .ret (.ok b) := fun k m hm => hcar.ok m (hmsgs k m hm)
  have hpre := hn3.trans (C34_prefix t _ _ (Sender.history_past hx (max n n2)))
  rw [frames_sent _ (hok _)] at hpre
  obtain ⟨e1, _, e2⟩ := hcar.back (sent (past ev (max n n2))) (hmsgs _) _ b tok g1 hpre
  obtain ⟨r, hr⟩ := sent_past_prefix ev (Nat.le_max_left n n2)
  have htake : (sent (past ev (max n n2))).take (sent (past ev n)).length = sent (past ev n) := by
    rw [← hr, List.take_left]
  have hj := e2 (sent (past ev n)).length (by rw [← hr]; simp) (by
    rw [htake, ← frames_sent _ (hok n)]; exact harr)
  refine ⟨m2, ?_⟩
  have e3 := each_take e1 (sent (past ev n)).length
  rw [List.take_take, Nat.min_eq_left hj, htake] at e3
  obtain ⟨r2, hr2⟩ := g2
  rw [← hr2, List.take_append_of_le_length hj]
  exact e3

/-- **C84.** A sender that keeps running, over a network that loses nothing, to a receiver that keeps being asked: every
message given to `Send` is returned by `Receive`, eventually, in order, each once, with all its fields and no error.
(RFC 5425; connects may fail before one succeeds; `End` is not called; any queue length, any interleaving, any
segmentation, any other connections of the receiver.) -/
theorem C84_delivered (ev : Nat → Option Sender.Event) (st : Nat → Sender.State) (hx : SenderExec .rfc5425 ev st)
    (hrun : Running .rfc5425 ev st) (hread : ErrorsRead st) (hrec : Recovers ev) (hend : ∀ n, (st n).endAsked = false)
    (hcs : ∀ n, (st n).crashed = false)
    (hw : ∀ n nb e, ev n ≠ some (.write nb (some e))) (hmsgs : ∀ n, ∀ m ∈ sent (past ev n), Transmissible m)
    (lenQueue : Nat) (er : Nat → Option Recv.Event) (sr : Nat → Recv.State)
    (hxr : ReceiverExec .rfc5425 lenQueue er sr) (hcons : Consumed .rfc5425 lenQueue er sr) (herr : ErrorsDrained sr)
    (hc : ∀ n, (sr n).crashed = false) (i : Nat) (hserve : Served .rfc5425 lenQueue i er sr) (hi : ∃ n, i < (sr n).conns.length)
    (hlink : Link st i er) (n : Nat) :
    ∃ m, Each IsReceived (sent (past ev n)) ((ofConn i (sr m).got).take (sent (past ev n)).length) :=
  delivered carries_5425 ev st hx hw hmsgs lenQueue er sr hxr hcons herr hc i hserve hi hlink n
    (C82_written _ ev st hx hrun hread hrec hend hcs n)

/-- **C84**, with the LF and NUL transports. -/
theorem C84_lines (t : Transport) (z : UInt8) (ht : t = .lfEnded ∧ z = 10 ∨ t = .zeroEnded ∧ z = 0)
    (ev : Nat → Option Sender.Event) (st : Nat → Sender.State) (hx : SenderExec t ev st)
    (hrun : Running t ev st) (hread : ErrorsRead st) (hrec : Recovers ev) (hend : ∀ n, (st n).endAsked = false)
    (hcs : ∀ n, (st n).crashed = false)
    (hw : ∀ n nb e, ev n ≠ some (.write nb (some e))) (hmsgs : ∀ n, ∀ m ∈ sent (past ev n), TransmissibleLine z m)
    (lenQueue : Nat) (er : Nat → Option Recv.Event) (sr : Nat → Recv.State)
    (hxr : ReceiverExec t lenQueue er sr) (hcons : Consumed t lenQueue er sr) (herr : ErrorsDrained sr)
    (hc : ∀ n, (sr n).crashed = false) (i : Nat) (hserve : Served t lenQueue i er sr) (hi : ∃ n, i < (sr n).conns.length)
    (hlink : Link st i er) (n : Nat) :
    ∃ m, Each IsReceived (sent (past ev n)) ((ofConn i (sr m).got).take (sent (past ev n)).length) :=
  delivered (carries_lines ht) ev st hx hw hmsgs lenQueue er sr hxr hcons herr hc i hserve hi hlink n
    (C82_written _ ev st hx hrun hread hrec hend hcs n)

/-- **C84**, with `End`: the messages given to `Send` before `End` was called are returned by `Receive`, eventually, if
sends stop. -/
theorem C84_end (ev : Nat → Option Sender.Event) (st : Nat → Sender.State) (hx : SenderExec .rfc5425 ev st)
    (hrun : Running .rfc5425 ev st) (hread : ErrorsRead st) (hrec : Recovers ev) (hstop : SendsStop ev) (hnotice : NoticesEnd ev st)
    (hcs : ∀ n, (st n).crashed = false)
    (hw : ∀ n nb e, ev n ≠ some (.write nb (some e))) (hmsgs : ∀ n, ∀ m ∈ sent (past ev n), Transmissible m)
    (lenQueue : Nat) (er : Nat → Option Recv.Event) (sr : Nat → Recv.State)
    (hxr : ReceiverExec .rfc5425 lenQueue er sr) (hcons : Consumed .rfc5425 lenQueue er sr) (herr : ErrorsDrained sr)
    (hc : ∀ n, (sr n).crashed = false) (i : Nat) (hserve : Served .rfc5425 lenQueue i er sr) (hi : ∃ n, i < (sr n).conns.length)
    (hlink : Link st i er) (n : Nat) (hend : ev n = some .endCall) :
    ∃ m, Each IsReceived (sent (past ev n)) ((ofConn i (sr m).got).take (sent (past ev n)).length) := by
  have hasked : (st (n + 1)).endAsked = true := by
    have hs := hx.event n _ hend
    obtain ⟨_, htr⟩ := Sender.step_tr hs
    generalize st (n + 1) = b at htr
    cases htr
    · rename_i h; exact h
    · rfl
  obtain ⟨m, hm⟩ := C82_end_returns _ ev st hx hrun hread hrec hstop hnotice ⟨n + 1, hasked⟩ hcs
  refine delivered carries_5425 ev st hx hw hmsgs lenQueue er sr hxr hcons herr hc i hserve hi hlink n ⟨max m (n + 1), by omega, ?_⟩
  -- `End` has returned for good
  have hret : (st (max m (n + 1))).endCompleted = true := by
    refine stays hx (fun s => s.endCompleted = true) m hm ?_ _ (Nat.le_max_left _ _)
    intro j _ e he h
    obtain ⟨_, htr⟩ := Sender.step_tr (hx.event j e he)
    generalize st (j + 1) = b at htr
    cases htr <;> first | exact h | rfl
  obtain ⟨r, hr⟩ := past_prefix ev (Nat.le_max_right m (n + 1))
  have hh := Sender.history_past hx (max m (n + 1))
  rw [← hr, past_succ, hend] at hh
  simp only [Option.toList, List.append_assoc, List.singleton_append] at hh
  exact C35_end_flushes _ _ _ _ hh hret (hcs _)

/-! ## an execution that meets the hypotheses of C83 and C84

A connect fails, the second succeeds, a message with structured data is written; it arrives in two parts and is
received. -/

def demoForever : List Sender.Event := exForeverOf demoMsg 153

theorem demoForever_steps : ∀ i, i < 20 → (match demoForever[i]? with | some e => Sender.step .rfc5425 (after .rfc5425 demoForever i) e | none => some (after .rfc5425 demoForever i)) =
      some (after .rfc5425 demoForever (if i + 1 = 20 then 15 else i + 1)) := by decide +kernel

theorem demoForever_bytes : ∀ i, i < 20 → firstBytes (after .rfc5425 demoForever i) = if i ≤ 11 then [] else demoFrame := by decide +kernel

theorem demoReceived_run : ∃ q, Recv.run .rfc5425 0 Recv.init demoReceived = some q ∧ q.crashed = false ∧ q.pipeline = [] ∧ q.errs = 0 ∧
    q.conns.length = 1 ∧ (∀ c ∈ q.conns, c.pending = [] ∧ c.errPending = false) := by
  have h : (match Recv.run .rfc5425 0 Recv.init demoReceived with
      | some q => !q.crashed && q.pipeline.isEmpty && decide (q.errs = 0) && decide (q.conns.length = 1) &&
        q.conns.all fun c => c.pending.isEmpty && !c.errPending
      | none => false) = true := by decide +kernel
  cases hq : Recv.run .rfc5425 0 Recv.init demoReceived with
  | none => rw [hq] at h; cases h
  | some q =>
    rw [hq] at h
    simp only [Bool.and_eq_true, Bool.not_eq_true', List.isEmpty_iff, decide_eq_true_eq, List.all_eq_true] at h
    exact ⟨q, rfl, h.1.1.1.1, h.1.1.1.2, h.1.1.2, h.1.2, h.2⟩

theorem demo_past_all : ∀ m, past (fun n => demoReceived[n]?) m <+: demoReceived := by
  intro m
  have : ∀ m, past (fun n => demoReceived[n]?) m = demoReceived.take m := by
    intro m
    induction m with
    | zero => rfl
    | succ m ih => rw [past_succ, ih, List.take_add_one]
  rw [this]
  exact List.take_prefix _ _

example : ∃ ev st er sr, SenderExec .rfc5425 ev st ∧ Running .rfc5425 ev st ∧ ErrorsRead st ∧ Recovers ev ∧
    (∀ n, (st n).endAsked = false) ∧ (∀ n, (st n).crashed = false) ∧ (∀ n nb e, ev n ≠ some (.write nb (some e))) ∧
    sent (past ev 1) = [demoMsg] ∧ (∀ n, ∀ m ∈ sent (past ev n), m = demoMsg) ∧
    ReceiverExec .rfc5425 0 er sr ∧ Consumed .rfc5425 0 er sr ∧ ErrorsDrained sr ∧ (∀ n, (sr n).crashed = false) ∧
    Served .rfc5425 0 0 er sr ∧ (∃ n, 0 < (sr n).conns.length) ∧ Link st 0 er := by
  obtain ⟨q, hq, h1, h2, h3, h4, h5⟩ := demoReceived_run
  obtain ⟨f1, f2, f3⟩ := Recv.fin_fair hq h2 (by rw [h3]; decide) h5 0
  obtain ⟨g1, g2, g3, g4, g5, g6, g7⟩ := exForeverOf_fair (t := .rfc5425) (m := demoMsg) (size := 153) demoForever_steps
    (by decide +kernel) (by decide +kernel) (by decide +kernel)
  have hev : ∀ n m, lassoEv demoForever 15 5 n = some (.send m) → m = demoMsg := by
    intro n m he
    have hall : ∀ i, i < 20 → ∀ m, demoForever[i]? = some (.send m) → m = demoMsg := by
      intro i hi m hm
      match i, hi with
      | 0, _ => cases hm; rfl
      | 1, _ => cases hm
      | 2, _ => cases hm
      | 3, _ => cases hm
      | 4, _ => cases hm
      | 5, _ => cases hm
      | 6, _ => cases hm
      | 7, _ => cases hm
      | 8, _ => cases hm
      | 9, _ => cases hm
      | 10, _ => cases hm
      | 11, _ => cases hm
      | 12, _ => cases hm
      | 13, _ => cases hm
      | 14, _ => cases hm
      | 15, _ => cases hm
      | 16, _ => cases hm
      | 17, _ => cases hm
      | 18, _ => cases hm
      | 19, _ => cases hm
    exact hall _ (lasso_succ 15 5 n (by omega)).1 m he
  have hbytes : ∀ n, firstBytes (lassoSt .rfc5425 demoForever 15 5 n) = if lasso 15 5 n ≤ 11 then [] else demoFrame :=
    fun n => demoForever_bytes _ (lasso_succ 15 5 n (by omega)).1
  refine ⟨lassoEv demoForever 15 5, lassoSt .rfc5425 demoForever 15 5, fun n => demoReceived[n]?, Recv.finSt .rfc5425 0 demoReceived,
    g1, g2, g3, g4, g5, g6, g7, rfl, ?_, Recv.fin_exec hq, f1, f2, Recv.fin_alive hq h1, f3, ⟨5, ?_⟩, ⟨?_, ?_⟩⟩
  · intro n
    induction n with
    | zero => simp [past, sent]
    | succ n ih =>
      rw [past_succ, sent_append]
      intro m hm
      rcases List.mem_append.mp hm with hm | hm
      · exact ih m hm
      · cases he : lassoEv demoForever 15 5 n with
        | none => rw [he] at hm; simp [sent] at hm
        | some e =>
          rw [he] at hm
          cases e <;> simp [sent] at hm
          subst hm
          exact hev n _ he
  · rw [Recv.fin_end hq (by decide)]; omega
  · intro m
    refine ⟨15, ?_⟩
    rw [hbytes 15]
    obtain ⟨r, hr⟩ := demo_past_all m
    have ha : arrived (readsOf 0 demoReceived) = demoFrame := by decide +kernel
    rw [← hr, Recv.readsOf_append] at ha
    rw [if_neg (by decide), ← ha]
    simp only [arrived, List.flatMap_append]
    exact List.prefix_append _ _
  · intro n
    refine ⟨5, ?_⟩
    have ha : arrived (readsOf 0 (past (fun n => demoReceived[n]?) 5)) = demoFrame := by decide +kernel
    rw [ha, hbytes n]
    split
    · exact List.nil_prefix
    · exact List.prefix_refl _

end Syslog5424
