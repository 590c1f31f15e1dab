import Verif.Props.Reconnect
/-! # C100: delivery on one connection, whatever happens on the others -/
namespace Syslog5424
open Spec

/-- A connection that begins between two frames. -/
theorem delivered_on {t : Transport} {Good : Message → Prop} (hcar : Carries t Good)
    (ev : Nat → Option Sender.Event) (st : Nat → Sender.State) (hx : SenderExec t ev st) (hmsgs : ∀ n, ∀ m ∈ sent (past ev n), Good m)
    (j n k d : Nat) (hj : j < (st n).conns.length) (hk : k + d ≤ (sent (past ev n)).length)
    (hcut : bytesOn ((st n).conns.take j) = ((frames t (past ev n)).take k).flatten)
    (hwr : (((frames t (past ev n)).drop k).take d).flatten <+: connBytes j (st n))
    (lenQueue : Nat) (er : Nat → Option Recv.Event) (sr : Nat → Recv.State)
    (hxr : ReceiverExec t lenQueue er sr) (hcons : Consumed t lenQueue er sr) (herr : ErrorsDrained sr)
    (hc : ∀ n, (sr n).crashed = false) (i : Nat) (hserve : Served t lenQueue i er sr) (hopen : ∃ n, i < (sr n).conns.length)
    (hfaithful : ∀ m, ∃ n, arrived (readsOf i (past er m)) <+: connBytes j (st n))
    (hlive : ∃ m, connBytes j (st n) <+: arrived (readsOf i (past er m))) :
    ∃ m, Each IsReceived (((sent (past ev n)).drop k).take d) ((ofConn i (sr m).got).take d) := by
  have hok : ∀ k, ∀ m ∈ sent (past ev k), ∃ b, m.marshal = .ret (.ok b) := fun k m hm => hcar.ok m (hmsgs k m hm)
  obtain ⟨a, ha⟩ := hopen
  obtain ⟨m1, hm1⟩ := hlive
  have stay : ∀ m, a ≤ m → i < (sr m).conns.length := by
    intro m hm
    obtain ⟨c', h, _⟩ := Recv.conn_stays hxr hc (List.getElem?_eq_getElem ha) hm
    rcases Nat.lt_or_ge i (sr m).conns.length with h5 | h5
    · exact h5
    · rw [List.getElem?_eq_none h5] at h; cases h
  obtain ⟨M, b, tok, g0, g1, g2⟩ := C83_received t lenQueue er sr hxr hcons herr hc i hserve (max a m1) (stay _ (Nat.le_max_left _ _))
  obtain ⟨n2, hn2⟩ := hfaithful M
  have hn1 : n ≤ max n n2 := Nat.le_max_left _ _
  have harrM : arrived (readsOf i (past er M)) <+: connBytes j (st (max n n2)) := hn2.trans (connBytes_grows (grows_exec hx (Nat.le_max_right _ _)) j)
  generalize max n n2 = n1 at hn1 harrM
  have hg := grows_exec hx hn1
  have hjl : j < (st n1).conns.length := Nat.lt_of_lt_of_le hj hg.length
  obtain ⟨r, hr⟩ := sent_past_prefix ev hn1
  have hfr : ∀ a, a ≤ (sent (past ev n)).length → (frames t (past ev n1)).take a = (frames t (past ev n)).take a := by
    intro a ha
    rw [frames_sent _ (hok n1), frames_sent _ (hok n), ← List.map_take, ← List.map_take, ← hr, List.take_append_of_le_length ha]
  have hcut1 : bytesOn ((st n1).conns.take j) = ((frames t (past ev n1)).take k).flatten := by
    rw [bytesOn_same hg j hj, hcut, hfr k (by omega)]
  have hcb : connBytes j (st n1) = ((st n1).conns[j]).writes.flatten := by
    unfold connBytes; rw [List.getElem?_eq_getElem hjl]; rfl
  have hsplit : (st n1).conns = (st n1).conns.take j ++ (st n1).conns[j] :: (st n1).conns.drop (j + 1) := by
    rw [List.getElem_cons_drop, List.take_append_drop]
  have hh := Sender.history_past hx n1
  have hw := conn_carries hcar _ _ hh (hmsgs n1) _ _ _ hsplit k hcut1
  rw [hcb] at harrM
  have hi := stay M (by omega)
  obtain ⟨q1, _⟩ := conn_received hcar _ _ hh (hmsgs n1) _ _ _ hsplit k hcut1 lenQueue _ _ (Recv.history_past hxr M) (hc M) i _
    (List.getElem?_eq_getElem hi) harrM
  have hdk : ((sent (past ev n1)).drop k).take d = ((sent (past ev n)).drop k).take d := by
    rw [← hr, List.drop_append_of_le_length (by omega), List.take_append_of_le_length (by rw [List.length_drop]; omega)]
  have hle : arrived (readsOf i (past er (max a m1))) <+: arrived (readsOf i (past er M)) := arrived_past_prefix i er g0
  have hm1' : arrived (readsOf i (past er m1)) <+: arrived (readsOf i (past er (max a m1))) := arrived_past_prefix i er (Nat.le_max_right _ _)
  obtain ⟨_, _, g5⟩ := hcar.back _ (fun m hm => hmsgs n1 m (List.mem_of_mem_drop hm)) _ _ _ g1 ((hle.trans harrM).trans hw)
  have hd : d ≤ tok.out.length := by
    refine g5 d ?_ ?_
    · rw [← hr, List.length_drop, List.length_append]; omega
    · rw [hdk, List.map_take, List.map_drop, ← frames_sent (t := t) _ (hok n)]
      exact hwr.trans (hm1.trans hm1')
  have hd' : d ≤ (ofConn i (sr M).got).length := Nat.le_trans hd g2.length_le
  have := each_take q1 d
  rw [List.take_take, Nat.min_eq_left hd', hdk] at this
  exact ⟨M, this⟩

/-- **C100**, without any assumption about failures: writes may fail anywhere, also in the middle of a frame, and connections may fail as often as they like;
nothing is assumed about the errors being read, about fairness of the sender, or about `End`. On every connection that began between two frames,
the messages that were written to it whole are returned by `Receive`, eventually, in order, each once, with all their fields and no error. What is
missing is on the connections that began inside a frame: see `C53_cut_violated`. -/
theorem C100_connection_partial (ev : Nat → Option Sender.Event) (st : Nat → Sender.State) (hx : SenderExec .rfc5425 ev st)
    (hmsgs : ∀ n, ∀ m ∈ sent (past ev n), Transmissible m)
    (j n k d : Nat) (hj : j < (st n).conns.length) (hk : k + d ≤ (sent (past ev n)).length)
    (hcut : bytesOn ((st n).conns.take j) = ((frames .rfc5425 (past ev n)).take k).flatten)
    (hwr : (((frames .rfc5425 (past ev n)).drop k).take d).flatten <+: connBytes j (st n))
    (lenQueue : Nat) (er : Nat → Option Recv.Event) (sr : Nat → Recv.State)
    (hxr : ReceiverExec .rfc5425 lenQueue er sr) (hcons : Consumed .rfc5425 lenQueue er sr) (herr : ErrorsDrained sr)
    (hc : ∀ n, (sr n).crashed = false) (i : Nat) (hserve : Served .rfc5425 lenQueue i er sr) (hopen : ∃ n, i < (sr n).conns.length)
    (hfaithful : ∀ m, ∃ n, arrived (readsOf i (past er m)) <+: connBytes j (st n))
    (hlive : ∃ m, connBytes j (st n) <+: arrived (readsOf i (past er m))) :
    ∃ m, Each IsReceived (((sent (past ev n)).drop k).take d) ((ofConn i (sr m).got).take d) :=
  delivered_on carries_5425 ev st hx hmsgs j n k d hj hk hcut hwr lenQueue er sr hxr hcons herr hc i hserve hopen hfaithful hlive

/-- **C100**, the same with the LF and NUL transports; for the connections that began inside a frame see `C72_cut_violated`. -/
theorem C100_connection_lines_partial (t : Transport) (z : UInt8) (ht : t = .lfEnded ∧ z = 10 ∨ t = .zeroEnded ∧ z = 0)
    (ev : Nat → Option Sender.Event) (st : Nat → Sender.State) (hx : SenderExec t ev st)
    (hmsgs : ∀ n, ∀ m ∈ sent (past ev n), TransmissibleLine z m)
    (j n k d : Nat) (hj : j < (st n).conns.length) (hk : k + d ≤ (sent (past ev n)).length)
    (hcut : bytesOn ((st n).conns.take j) = ((frames t (past ev n)).take k).flatten)
    (hwr : (((frames t (past ev n)).drop k).take d).flatten <+: connBytes j (st n))
    (lenQueue : Nat) (er : Nat → Option Recv.Event) (sr : Nat → Recv.State)
    (hxr : ReceiverExec t lenQueue er sr) (hcons : Consumed t lenQueue er sr) (herr : ErrorsDrained sr)
    (hc : ∀ n, (sr n).crashed = false) (i : Nat) (hserve : Served t lenQueue i er sr) (hopen : ∃ n, i < (sr n).conns.length)
    (hfaithful : ∀ m, ∃ n, arrived (readsOf i (past er m)) <+: connBytes j (st n))
    (hlive : ∃ m, connBytes j (st n) <+: arrived (readsOf i (past er m))) :
    ∃ m, Each IsReceived (((sent (past ev n)).drop k).take d) ((ofConn i (sr m).got).take d) :=
  delivered_on (carries_lines ht) ev st hx hmsgs j n k d hj hk hcut hwr lenQueue er sr hxr hcons herr hc i hserve hopen hfaithful hlive

/-! The hypotheses are met by a sender whose first connection fails after 20 bytes of the first message, whose second connection (on which the rest of it
is written) is reset before the second message, and which writes that to a third connection. -/

/-- The sender. -/
def thirdForever : List Sender.Event :=
  [.send demoLine, .tick, .tau, .connect none, .tau, .tau, .write 20 (some (.other 0)), .tau, .tau,
   .tick, .tau, .connect none, .tau, .tau, .write 57 none, .tau, .tau, .tau,
   .recvErr (.write 0), .send demoLine, .tick, .tau, .tau, .tau, .write 0 (some (.other 0)), .tau, .tau,
   .tick, .tau, .connect none, .tau, .tau, .write 77 none, .tau, .tau, .tau, .recvErr (.write 0), .tick, .tau, .tau, .tau, .tau]

/-- Its receiver. -/
def thirdReceived : List Recv.Event :=
  [.tau, .acceptOk, .read 0 { data := demoLineFrame.take 20 }, .tau, .acceptOk, .read 1 { data := demoLineFrame.drop 20 }, .handoff 1,
   .tau, .acceptOk, .read 2 { data := demoLineFrame }, .handoff 2]

theorem thirdForever_steps : ∀ i, i < 42 → (match thirdForever[i]? with | some e => Sender.step .lfEnded (after .lfEnded thirdForever i) e | none => some (after .lfEnded thirdForever i)) =
      some (after .lfEnded thirdForever (if i + 1 = 42 then 37 else i + 1)) := by decide +kernel

theorem thirdReceived_run : ∃ q, Recv.run .lfEnded 0 Recv.init thirdReceived = some q ∧ q.crashed = false ∧ q.pipeline = [] ∧ q.errs = 0 ∧
    q.conns.length = 3 ∧ (∀ c ∈ q.conns, c.pending = [] ∧ c.errPending = false) := by
  have h : (match Recv.run .lfEnded 0 Recv.init thirdReceived with
      | some q => !q.crashed && q.pipeline.isEmpty && decide (q.errs = 0) && decide (q.conns.length = 3) &&
        q.conns.all fun c => c.pending.isEmpty && !c.errPending
      | none => false) = true := by decide +kernel
  cases hq : Recv.run .lfEnded 0 Recv.init thirdReceived with
  | none => rw [hq] at h; cases h
  | some q =>
    rw [hq] at h
    simp only [Bool.and_eq_true, Bool.not_eq_true', List.isEmpty_iff, decide_eq_true_eq, List.all_eq_true] at h
    exact ⟨q, rfl, h.1.1.1.1, h.1.1.1.2, h.1.1.2, h.1.2, h.2⟩

theorem third_past : ∀ m, past (fun n => thirdReceived[n]?) m = thirdReceived.take m := by
  intro m
  induction m with
  | zero => rfl
  | succ m ih => rw [past_succ, ih, List.take_add_one]

example : ∃ ev st er sr, SenderExec .lfEnded ev st ∧ (∀ n, ∀ m ∈ sent (past ev n), m = demoLine) ∧ (st 37).conns.length = 3 ∧
    sent (past ev 37) = [demoLine, demoLine] ∧ bytesOn ((st 37).conns.take 2) = ((frames .lfEnded (past ev 37)).take 1).flatten ∧
    bytesOn ((st 37).conns.take 1) = demoLineFrame.take 20 ∧
    (((frames .lfEnded (past ev 37)).drop 1).take 1).flatten <+: connBytes 2 (st 37) ∧
    ReceiverExec .lfEnded 0 er sr ∧ Consumed .lfEnded 0 er sr ∧ ErrorsDrained sr ∧ (∀ n, (sr n).crashed = false) ∧
    Served .lfEnded 0 2 er sr ∧ (∃ n, 2 < (sr n).conns.length) ∧
    (∀ m, ∃ n, arrived (readsOf 2 (past er m)) <+: connBytes 2 (st n)) ∧ (∃ m, connBytes 2 (st 37) <+: arrived (readsOf 2 (past er m))) := by
  obtain ⟨q, hq, h1, h2, h3, h4, h5⟩ := thirdReceived_run
  obtain ⟨f1, f2, f3⟩ := Recv.fin_fair hq h2 (by rw [h3]; decide) h5 2
  have ha : arrived (readsOf 2 thirdReceived) = demoLineFrame := by decide +kernel
  have hb : connBytes 2 (lassoSt .lfEnded thirdForever 37 5 37) = demoLineFrame := by decide +kernel
  refine ⟨lassoEv thirdForever 37 5, lassoSt .lfEnded thirdForever 37 5, fun n => thirdReceived[n]?, Recv.finSt .lfEnded 0 thirdReceived,
    lasso_exec _ _ 37 5 (by omega) thirdForever_steps, ?_, by decide +kernel, rfl, by decide +kernel, by decide +kernel, by decide +kernel,
    Recv.fin_exec hq, f1, f2, Recv.fin_alive hq h1, f3, ⟨11, ?_⟩, ?_, ⟨11, ?_⟩⟩
  · intro n m hm
    have := mem_of_sent hm
    simp only [past, List.mem_filterMap, List.mem_range] at this
    obtain ⟨k, _, hk⟩ := this
    have h := List.mem_of_getElem? hk
    simp only [thirdForever, List.mem_cons, List.not_mem_nil, or_false, Sender.Event.send.injEq, reduceCtorEq, false_or, or_self] at h
    exact h
  · rw [Recv.fin_end hq (by decide), h4]; decide
  · intro m
    refine ⟨37, ?_⟩
    obtain ⟨r, hr⟩ := List.take_prefix m thirdReceived
    rw [hb, third_past, ← ha, ← hr, Recv.readsOf_append]
    simp only [arrived, List.flatMap_append, hr]
    exact List.prefix_append _ _
  · rw [hb, third_past, ← ha]; exact List.prefix_refl _

end Syslog5424
