import Verif.Props.Reconnect
import Verif.Props.LoggingMany
/-! # C101: every line that is logged is received, eventually -/
namespace Syslog5424
open Spec

/-- **C101.** A program that logs for ever to a sender that keeps running and reconnects when a write fails, over a network
that loses nothing, to a receiver that keeps being asked: what every line that passes the threshold says is returned by
`Receive`, eventually, each once, in the order of the lines on each connection and over the connections. (RFC 5425; `End` is
not called.) Missing: a connection that is changed inside a frame, see `C100_midframe_violated`. -/
theorem C101_logged_partial (host : Option Bytes) (pid out : Nat) (p : Int) (app : Bytes) (hpid : pid < 2 ^ 63) (s0 : Syslog)
    (h0 : Syslog.new host pid out p app = some s0) (lines : Nat → List LogCall) (hlines : ∀ n, ∀ c ∈ lines n, Loggable c)
    (ev : Nat → Option Sender.Event) (st : Nat → Sender.State) (hlog : LoggedBy s0 out lines ev)
    (hsize : ∀ n, ∀ m ∈ sent (past ev n), ∀ b, m.marshal = .ret (.ok b) → b.length < 2 ^ 62)
    (hx : SenderExec .rfc5425 ev st)
    (hrun : Running .rfc5425 ev st) (hread : ErrorsRead st) (hrec : Recovers ev) (hend : ∀ n, (st n).endAsked = false)
    (hcs : ∀ n, (st n).crashed = false)
    (hcut : ∀ n, CutsBetween (frames .rfc5425 (past ev n)) (st n).conns)
    (lenQueue : Nat) (er : Nat → Option Recv.Event) (sr : Nat → Recv.State)
    (hxr : ReceiverExec .rfc5425 lenQueue er sr) (hcons : Consumed .rfc5425 lenQueue er sr) (herr : ErrorsDrained sr)
    (hc : ∀ n, (sr n).crashed = false) (f : Nat → Nat)
    (hopen : ∀ j, Opened st j → Served .rfc5425 lenQueue (f j) er sr ∧ ∃ n, f j < (sr n).conns.length)
    (hlink : Links st f er) (n : Nat) :
    ∃ m k, Each (Says host pid p app) (passing p (lines n)) ((receivedOver f k (sr m).got).take (passing p (lines n)).length) := by
  have htr : ∀ n, ∀ m ∈ sent (past ev n), Transmissible m := by
    intro n m hm
    obtain ⟨s1, h1⟩ := hlog n
    obtain ⟨cl, h2, h3⟩ := each_mem (logged_says h0 h1) m hm
    exact ⟨says_intact hpid h3 (hlines n cl (List.mem_filter.mp h2).1), hsize n m hm⟩
  obtain ⟨m, k, main⟩ := C100_delivered_partial ev st hx hrun hread hrec hend hcs hcut htr lenQueue er sr hxr hcons herr hc f hopen hlink n
  obtain ⟨s1, h1⟩ := hlog n
  have g := logged_says h0 h1
  refine ⟨m, k, ?_⟩
  rw [← each_length g]
  exact each_trans g main (fun _ _ _ _ a b => says_received a b)

/-- **C101**, with the LF and NUL transports. -/
theorem C101_lines_partial (t : Transport) (z : UInt8) (ht : t = .lfEnded ∧ z = 10 ∨ t = .zeroEnded ∧ z = 0)
    (host : Option Bytes) (pid out : Nat) (p : Int) (app : Bytes) (hpid : pid < 2 ^ 63) (s0 : Syslog)
    (h0 : Syslog.new host pid out p app = some s0) (lines : Nat → List LogCall) (hlines : ∀ n, ∀ c ∈ lines n, LoggableLine z c)
    (ev : Nat → Option Sender.Event) (st : Nat → Sender.State) (hlog : LoggedBy s0 out lines ev)
    (hx : SenderExec t ev st)
    (hrun : Running t ev st) (hread : ErrorsRead st) (hrec : Recovers ev) (hend : ∀ n, (st n).endAsked = false)
    (hcs : ∀ n, (st n).crashed = false)
    (hcut : ∀ n, CutsBetween (frames t (past ev n)) (st n).conns)
    (lenQueue : Nat) (er : Nat → Option Recv.Event) (sr : Nat → Recv.State)
    (hxr : ReceiverExec t lenQueue er sr) (hcons : Consumed t lenQueue er sr) (herr : ErrorsDrained sr)
    (hc : ∀ n, (sr n).crashed = false) (f : Nat → Nat)
    (hopen : ∀ j, Opened st j → Served t lenQueue (f j) er sr ∧ ∃ n, f j < (sr n).conns.length)
    (hlink : Links st f er) (n : Nat) :
    ∃ m k, Each (Says host pid p app) (passing p (lines n)) ((receivedOver f k (sr m).got).take (passing p (lines n)).length) := by
  have htr : ∀ n, ∀ m ∈ sent (past ev n), TransmissibleLine z m := by
    intro n m hm
    obtain ⟨s1, h1⟩ := hlog n
    obtain ⟨cl, h2, h3⟩ := each_mem (logged_says h0 h1) m hm
    exact says_line hpid h3 (hlines n cl (List.mem_filter.mp h2).1)
  obtain ⟨m, k, main⟩ := C100_lines_partial t z ht ev st hx hrun hread hrec hend hcs hcut htr lenQueue er sr hxr hcons herr hc f hopen hlink n
  obtain ⟨s1, h1⟩ := hlog n
  have g := logged_says h0 h1
  refine ⟨m, k, ?_⟩
  rw [← each_length g]
  exact each_trans g main (fun _ _ _ _ a b => says_received a b)

/-! ## an execution that meets the hypotheses

The program of `C73`, whose second message is refused by the first connection of the sender. -/

def loggedForever : List Sender.Event := demoLineLogSent ++ [.recvErr (.write 0), .tick, .tau, .tau, .tau, .tau]

theorem loggedForever_steps : ∀ i, i < 33 → (match loggedForever[i]? with | some e => Sender.step .lfEnded (after .lfEnded loggedForever i) e | none => some (after .lfEnded loggedForever i)) =
      some (after .lfEnded loggedForever (if i + 1 = 33 then 28 else i + 1)) := by decide +kernel

theorem loggedForever_conns : ∀ i, i < 33 → (after .lfEnded loggedForever i).conns.length = (if i ≤ 3 then 0 else if i ≤ 20 then 1 else 2) ∧
    connBytes 0 (after .lfEnded loggedForever i) = (if i ≤ 6 then [] else demoLineLoggedFrame) ∧
    connBytes 1 (after .lfEnded loggedForever i) = (if i ≤ 23 then [] else demoLineLoggedFrame) := by decide +kernel

theorem demoLineLogReceived_run : ∃ q, Recv.run .lfEnded 0 Recv.init demoLineLogReceived = some q ∧ q.crashed = false ∧ q.pipeline = [] ∧ q.errs = 0 ∧
    q.conns.length = 2 ∧ (∀ c ∈ q.conns, c.pending = [] ∧ c.errPending = false) := by
  have h : (match Recv.run .lfEnded 0 Recv.init demoLineLogReceived with
      | some q => !q.crashed && q.pipeline.isEmpty && decide (q.errs = 0) && decide (q.conns.length = 2) &&
        q.conns.all fun c => c.pending.isEmpty && !c.errPending
      | none => false) = true := by decide +kernel
  cases hq : Recv.run .lfEnded 0 Recv.init demoLineLogReceived with
  | none => rw [hq] at h; cases h
  | some q =>
    rw [hq] at h
    simp only [Bool.and_eq_true, Bool.not_eq_true', List.isEmpty_iff, decide_eq_true_eq, List.all_eq_true] at h
    exact ⟨q, rfl, h.1.1.1.1, h.1.1.1.2, h.1.1.2, h.1.2, h.2⟩

theorem demoLogged_past : ∀ m, past (fun n => demoLineLogReceived[n]?) m = demoLineLogReceived.take m := by
  intro m
  induction m with
  | zero => rfl
  | succ m ih => rw [past_succ, ih, List.take_add_one]

/-- How many messages were sent. -/
theorem loggedForever_sent (n : Nat) : sent (past (lassoEv loggedForever 28 5) n) =
    List.replicate (if n = 0 then 0 else if n ≤ 10 then 1 else 2) demoLineLogged := by
  induction n with
  | zero => rfl
  | succ n ih =>
    rw [past_succ, sent_append, ih]
    have hi' := (lasso_succ 28 5 n (by omega)).1
    have hno : ∀ i, i < 33 → (decide (i = 0 ∨ i = 10) || match loggedForever[i]? with | some (Sender.Event.send _) => false | _ => true) = true := by
      decide +kernel
    have hall : ∀ i, i < 33 → sent (loggedForever[i]?).toList = (if i = 0 ∨ i = 10 then [demoLineLogged] else []) := by
      intro i hi
      split
      · next h => rcases h with rfl | rfl <;> rfl
      · next h =>
        have := hno i hi
        rw [decide_eq_false h, Bool.false_or] at this
        cases he : loggedForever[i]? with
        | none => rfl
        | some e => rw [he] at this; cases e <;> first | rfl | cases this
    have hl : lasso 28 5 n = n ∧ n < 28 ∨ 28 ≤ lasso 28 5 n ∧ 28 ≤ n := by unfold lasso; split <;> omega
    unfold lassoEv
    rw [hall _ hi']
    rcases hl with ⟨h1, h2⟩ | ⟨h1, h2⟩
    · rw [h1]
      rcases Nat.eq_zero_or_pos n with rfl | h3
      · rfl
      · rw [if_neg (show n ≠ 0 by omega), if_neg (show n + 1 ≠ 0 by omega)]
        rcases Nat.lt_trichotomy n 10 with h4 | rfl | h4
        · rw [if_pos (by omega), if_neg (by omega), if_pos (by omega), List.append_nil]
        · rfl
        · rw [if_neg (by omega), if_neg (by omega), if_neg (by omega), List.append_nil]
    · rw [if_neg (by omega), if_neg (by omega), if_neg (by omega), if_neg (by omega), if_neg (by omega), List.append_nil]

example : ∃ s0 lines ev st er sr, Syslog.new (some b!"host") 42 3 166 b!"app" = some s0 ∧ LoggedBy s0 3 lines ev ∧
    lines 11 = demoLineLog ∧ (∀ n, ∀ c ∈ lines n, c ∈ demoLineLog) ∧
    SenderExec .lfEnded ev st ∧ Running .lfEnded ev st ∧ ErrorsRead st ∧ Recovers ev ∧
    (∀ n, (st n).endAsked = false) ∧ (∀ n, (st n).crashed = false) ∧ (∀ n nb e, ev n = some (.write nb (some e)) → nb = 0) ∧
    ReceiverExec .lfEnded 0 er sr ∧ Consumed .lfEnded 0 er sr ∧ ErrorsDrained sr ∧ (∀ n, (sr n).crashed = false) ∧
    (∀ j, Opened st j → Served .lfEnded 0 j er sr ∧ ∃ n, j < (sr n).conns.length) ∧ Opened st 1 ∧ Links st id er := by
  obtain ⟨q, hq, h1, h2, h3, h4, h5⟩ := demoLineLogReceived_run
  have hfair := fun j => Recv.fin_fair hq h2 (by rw [h3]; decide) h5 j
  have hmem : ∀ {n e}, lassoEv loggedForever 28 5 n = some e → e ∈ loggedForever := fun h => List.mem_of_getElem? h
  have hopen : ∀ j, Opened (lassoSt .lfEnded loggedForever 28 5) j → j = 0 ∨ j = 1 := by
    rintro j ⟨n, hn⟩
    have := (loggedForever_conns _ (lasso_succ 28 5 n (by omega)).1).1
    unfold lassoSt at hn
    rw [this] at hn
    split at hn
    · omega
    · split at hn <;> omega
  refine ⟨(Syslog.new (some b!"host") 42 3 166 b!"app").get rfl, fun n => demoLineLog.take (if n = 0 then 0 else if n ≤ 10 then 1 else 2),
    lassoEv loggedForever 28 5, lassoSt .lfEnded loggedForever 28 5, fun n => demoLineLogReceived[n]?,
    Recv.finSt .lfEnded 0 demoLineLogReceived, rfl, ?_, rfl, fun n c hc => List.mem_of_mem_take hc,
    lasso_exec _ _ 28 5 (by omega) loggedForever_steps, ?_, ?_, ⟨28, ?_⟩, ?_, ?_, ?_,
    Recv.fin_exec hq, (hfair 0).1, (hfair 0).2.1, Recv.fin_alive hq h1, ?_, ⟨28, ?_⟩, ⟨?_, ?_⟩⟩
  · intro n
    rw [loggedForever_sent]
    show ∃ s1, logAll _ (demoLineLog.take (if n = 0 then 0 else if n ≤ 10 then 1 else 2)) = _
    split
    · exact ⟨_, rfl⟩
    · split
      · exact ⟨{ (Syslog.new (some b!"host") 42 3 166 b!"app").get rfl with channels := ((Syslog.new (some b!"host") 42 3 166 b!"app").get rfl).table }, by with_unfolding_all rfl⟩
      · exact ⟨{ (Syslog.new (some b!"host") 42 3 166 b!"app").get rfl with channels := ((Syslog.new (some b!"host") 42 3 166 b!"app").get rfl).table }, by with_unfolding_all rfl⟩
  · intro n
    obtain ⟨m, hm, h⟩ := lasso_again 28 5 0 (by omega) n
    exact ⟨m, hm, Or.inl ⟨.tick, by simp only [lassoEv, h]; rfl, rfl⟩⟩
  · intro n _
    obtain ⟨m, hm, h⟩ := lasso_again 28 5 0 (by omega) n
    refine ⟨m, hm, ?_⟩
    simp only [lassoSt, h]
    decide +kernel
  · intro n hn e he
    have hi : 28 ≤ lasso 28 5 n := by unfold lasso; split <;> omega
    have hi' := (lasso_succ 28 5 n (by omega)).1
    have hall : ∀ i, i < 33 → 28 ≤ i → (loggedForever[i]?).map fails = some false := by decide +kernel
    have := hall _ hi' hi
    unfold lassoEv at he
    rw [he] at this
    exact Option.some.inj this
  · exact lasso_all 28 5 (by omega) (fun i => (after .lfEnded loggedForever i).endAsked = false) (by decide +kernel)
  · exact lasso_all 28 5 (by omega) (fun i => (after .lfEnded loggedForever i).crashed = false) (by decide +kernel)
  · intro n nb x he
    have h := hmem he
    simp only [loggedForever, demoLineLogSent, List.cons_append, List.nil_append, List.mem_cons, List.not_mem_nil, or_false, Sender.Event.write.injEq, reduceCtorEq, false_or, and_false] at h
    exact h.1
  · intro j hj
    refine ⟨(hfair j).2.2, 9, ?_⟩
    rw [Recv.fin_end hq (by decide)]
    rcases hopen j hj with rfl | rfl <;> omega
  · decide +kernel
  · intro j hj m
    refine ⟨28, ?_⟩
    have hb : connBytes j (lassoSt .lfEnded loggedForever 28 5 28) = demoLineLoggedFrame := by
      rcases hopen j hj with rfl | rfl <;> decide +kernel
    rw [hb]
    have ha : arrived (readsOf j demoLineLogReceived) = demoLineLoggedFrame := by
      rcases hopen j hj with rfl | rfl <;> decide +kernel
    obtain ⟨r, hr⟩ := List.take_prefix m demoLineLogReceived
    rw [← hr, Recv.readsOf_append] at ha
    rw [demoLogged_past, ← ha]
    simp only [arrived, List.flatMap_append]
    exact List.prefix_append _ _
  · intro j hj n
    refine ⟨9, ?_⟩
    have ha : arrived (readsOf j (past (fun n => demoLineLogReceived[n]?) 9)) = demoLineLoggedFrame := by
      rcases hopen j hj with rfl | rfl <;> decide +kernel
    show _ <+: arrived (readsOf j _)
    rw [ha]
    have := (loggedForever_conns _ (lasso_succ 28 5 n (by omega)).1).2
    unfold lassoSt
    rcases hopen j hj with rfl | rfl
    · rw [this.1]; split
      · exact List.nil_prefix
      · exact List.prefix_refl _
    · rw [this.2]; split
      · exact List.nil_prefix
      · exact List.prefix_refl _

end Syslog5424
