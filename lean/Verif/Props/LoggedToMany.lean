import Verif.Props.SendCalls
import Verif.Props.ReceiveCalls
/-! # C105: from many goroutines that log to many goroutines that receive -/
namespace Syslog5424
open Spec Sender Recv

/-- **C105.** Several goroutines log through one `Syslog`, several goroutines call `Receive` (at least one of them again and again), the sender
changes its connection when it fails: whatever was logged before the moment `n` (and passes the threshold) is returned by calls of `Receive`, once, the lines
of every goroutine that logs in its order. Missing: writes that fail in the middle of a frame, see `C100_midframe_violated`. -/
theorem C105_logged_partial (host : Option Bytes) (pid out : Nat) (p : Int) (app : Bytes) (hpid : pid < 2 ^ 63) (s0 s : Syslog) (x : Int)
    (c0 : Channel) (h0 : Syslog.new host pid out p app = some s0) (hfirst : s0.channel x = .ret (s, c0))
    (prog : Nat → Nat → List LogCall) (hl : ∀ g n, ∀ c ∈ prog g n, Loggable c)
    (ev : Nat → Option FEvent) (st : Nat → FState) (hlog : BeginLines s out prog ev)
    (hsize : ∀ n g m, ev n = some (.call g (.send m)) → ∀ b, m.marshal = .ret (.ok b) → b.length < 2 ^ 62) (hx : FExec .rfc5425 ev st)
    (hrun : RunnerScheduled .rfc5425 ev st) (hgo : ∀ g, Scheduled .rfc5425 g ev st) (hread : ErrorsRead fun n => (st n).s)
    (hcs : ∀ n, (st n).s.crashed = false) (hrec : Recovers (environment ev)) (hend : ∀ n g, ev n ≠ some (.call g .endCall))
    (hclean : ∀ n nb x, ev n = some (.other (.write nb (some x))) → nb = 0)
    (lenQueue : Nat) (er : Nat → Option REvent) (sr : Nat → RState) (hxr : RExec .rfc5425 lenQueue er sr)
    (hc : ∀ n, (sr n).s.crashed = false) (g0 : Nat) (hworker : Worker .rfc5425 lenQueue g0 er sr) (hret : ∀ g, Returns .rfc5425 lenQueue g er sr)
    (herr : ErrorsDrained fun n => (sr n).s) (f : Nat → Nat)
    (hopen : ∀ j, Opened (fun n => (st n).s) j →
      Served .rfc5425 lenQueue (f j) (fun n => (er n).bind atOnce) (fun n => (sr n).s) ∧ ∃ n, f j < (sr n).s.conns.length)
    (hlink : Links (fun n => (st n).s) f (fun n => (er n).bind atOnce)) (n : Nat) :
    ∃ m k a d, LinesBefore p prog n a ∧ Each (Says host pid p app) (a.map (·.2)) ((receivedOver f k (d.map (·.2))).take a.length) ∧
      ∀ g, ofGoroutine g d <+: messages (returnedTo g (sr m)) := by
  obtain ⟨m0, k, a, h1, h2⟩ := C104_logged_partial host pid out p app hpid s0 s x c0 h0 hfirst prog hl ev st hlog hsize hx hrun hgo hread hcs hrec hend
    hclean lenQueue _ _ (rexec_atOnce hxr) (C102_one_worker _ _ er sr hxr hc g0 hworker) herr hc f hopen hlink n
  obtain ⟨d, m, h3, h4⟩ := C102_returned _ _ er sr hxr hc hret m0
  exact ⟨m, k, a, d, h1, by rw [h3]; exact h2, h4⟩

/-- **C105**, with the LF and NUL transports. -/
theorem C105_lines_partial (t : Transport) (z : UInt8) (ht : t = .lfEnded ∧ z = 10 ∨ t = .zeroEnded ∧ z = 0)
    (host : Option Bytes) (pid out : Nat) (p : Int) (app : Bytes) (hpid : pid < 2 ^ 63) (s0 s : Syslog) (x : Int)
    (c0 : Channel) (h0 : Syslog.new host pid out p app = some s0) (hfirst : s0.channel x = .ret (s, c0))
    (prog : Nat → Nat → List LogCall) (hl : ∀ g n, ∀ c ∈ prog g n, LoggableLine z c)
    (ev : Nat → Option FEvent) (st : Nat → FState) (hlog : BeginLines s out prog ev) (hx : FExec t ev st)
    (hrun : RunnerScheduled t ev st) (hgo : ∀ g, Scheduled t g ev st) (hread : ErrorsRead fun n => (st n).s)
    (hcs : ∀ n, (st n).s.crashed = false) (hrec : Recovers (environment ev)) (hend : ∀ n g, ev n ≠ some (.call g .endCall))
    (hclean : ∀ n nb x, ev n = some (.other (.write nb (some x))) → nb = 0)
    (lenQueue : Nat) (er : Nat → Option REvent) (sr : Nat → RState) (hxr : RExec t lenQueue er sr)
    (hc : ∀ n, (sr n).s.crashed = false) (g0 : Nat) (hworker : Worker t lenQueue g0 er sr) (hret : ∀ g, Returns t lenQueue g er sr)
    (herr : ErrorsDrained fun n => (sr n).s) (f : Nat → Nat)
    (hopen : ∀ j, Opened (fun n => (st n).s) j →
      Served t lenQueue (f j) (fun n => (er n).bind atOnce) (fun n => (sr n).s) ∧ ∃ n, f j < (sr n).s.conns.length)
    (hlink : Links (fun n => (st n).s) f (fun n => (er n).bind atOnce)) (n : Nat) :
    ∃ m k a d, LinesBefore p prog n a ∧ Each (Says host pid p app) (a.map (·.2)) ((receivedOver f k (d.map (·.2))).take a.length) ∧
      ∀ g, ofGoroutine g d <+: messages (returnedTo g (sr m)) := by
  obtain ⟨m0, k, a, h1, h2⟩ := C104_logged_lines_partial t z ht host pid out p app hpid s0 s x c0 h0 hfirst prog hl ev st hlog hx hrun hgo hread hcs hrec
    hend hclean lenQueue _ _ (rexec_atOnce hxr) (C102_one_worker _ _ er sr hxr hc g0 hworker) herr hc f hopen hlink n
  obtain ⟨d, m, h3, h4⟩ := C102_returned _ _ er sr hxr hc hret m0
  exact ⟨m, k, a, d, h1, by rw [h3]; exact h2, h4⟩

/-! ## an execution that meets the hypotheses

The two goroutines of `C104` log, two goroutines receive: the second one gets the message of the first connection. -/

/-- A finite history at the end of which the goroutines of the user wait in `Receive` or are in no call, and nothing is left to receive. -/
theorem rpool_fair {t : Transport} {q : Nat} {es : List REvent} {f : RState} (hf : rrun t q rinit es = some f) (h1 : f.s.crashed = false)
    (h2 : f.s.pipeline = []) (h3 : f.s.pipelineClosed = false) (h4 : f.s.errs = 0)
    (h6 : ∀ c ∈ f.s.conns, c.pending = [] ∧ c.errPending = false) (hat : ∀ g, f.at_ g = .waiting ∨ f.at_ g = .idle)
    (hno : ∀ g, REvent.call g .endCall ∉ es) :
    RExec t q (fun n => es[n]?) (rfinSt t q es) ∧ (∀ n, (rfinSt t q es n).s.crashed = false) ∧
    (∀ g, f.at_ g = .waiting → Worker t q g (fun n => es[n]?) (rfinSt t q es)) ∧ (∀ g, Returns t q g (fun n => es[n]?) (rfinSt t q es)) ∧
    (ErrorsDrained fun n => (rfinSt t q es n).s) ∧ ∀ j, Served t q j (fun n => (es[n]?).bind atOnce) (fun n => (rfinSt t q es n).s) := by
  have hx := rfin_exec hf
  have hend : ∀ n, es.length ≤ n → rfinSt t q es n = f := fun n hn => rfin_end hf hn
  have hget : ∀ (j : Nat) (c : Recv.Conn), f.s.conns[j]? = some c → c.pending = [] ∧ c.errPending = false :=
    fun j c hj => h6 c (List.mem_of_getElem? hj)
  have hstep : ∀ e, (isReceive e = true ∨ (∃ j, isWorker j e = true) ∨ e = .recvClosed) → Recv.step t q f.s e = none := by
    intro e hr
    unfold Recv.step
    split
    · rfl
    cases e with
    | recv => simp [h2]
    | sendErr j =>
      simp only
      cases hj : f.s.conns[j]? with
      | none => rfl
      | some c => simp [(hget j c hj).2]
    | sendMsg j =>
      simp only
      cases hj : f.s.conns[j]? with
      | none => rfl
      | some c => simp [(hget j c hj).1]
    | handoff j =>
      simp only
      cases hj : f.s.conns[j]? with
      | none => rfl
      | some c => simp [(hget j c hj).1]
    | recvClosed => simp [h3]
    | _ => simp [isReceive, isWorker] at hr
  refine ⟨hx, ?_, ?_, ?_, ?_, ?_⟩
  · intro n
    cases hcr : (rfinSt t q es n).s.crashed with
    | false => rfl
    | true =>
      exfalso
      have := stays hx (fun s => s.s.crashed = true) n hcr (by
        intro m _ e he hm
        have := hx.event m e he
        simp [rstep, hm] at this) (max n es.length) (Nat.le_max_left _ _)
      rw [hend _ (Nat.le_max_right _ _), h1] at this
      cases this
  · intro g hg
    refine ⟨fun n => ⟨max n es.length, Nat.le_max_left _ _, Or.inr ?_⟩, fun n h => hno g (List.mem_of_getElem? h)⟩
    intro e he
    rw [hend _ (Nat.le_max_right _ _)]
    unfold rstep
    split
    · rfl
    cases e with
    | call g' o =>
      cases o with
      | endCall => simp [isReceiverOf] at he
      | receive =>
        have : g' = g := by simpa [isReceiverOf] using he
        subst this
        simp [hg]
    | take g' w =>
      have : g' = g := by simpa [isReceiverOf] using he
      subst this
      simp only [hg, Option.map_eq_none_iff]
      exact hstep _ (by cases w <;> simp [Way.event, isReceive])
    | ret g' =>
      have : g' = g := by simpa [isReceiverOf] using he
      subst this
      simp [hg]
    | tau g' => simp [isReceiverOf] at he
    | other e => simp [isReceiverOf] at he
  · intro g n
    refine ⟨max n es.length, Nat.le_max_left _ _, Or.inr ?_⟩
    intro e he
    rw [hend _ (Nat.le_max_right _ _)]
    cases e <;> simp only [reduceCtorEq, Bool.false_eq_true] at he
    rename_i g'
    have hgg : g' = g := by simpa using he
    subst hgg
    rcases hat g' with h | h <;> simp [rstep, h1, h]
  · intro n
    refine ⟨max n es.length, Nat.le_max_left _ _, ?_⟩
    simp only [hend _ (Nat.le_max_right n es.length), h4]; decide
  · intro j hen
    obtain ⟨m, hm, e, e1, e2⟩ := hen es.length
    simp only [hend m hm] at e2
    exact absurd (hstep e (Or.inr (Or.inl ⟨j, e1⟩))) e2

theorem past_atOnce (es : List REvent) (m : Nat) : past (fun n => (es[n]?).bind atOnce) m = (es.take m).filterMap atOnce := by
  induction m with
  | zero => rfl
  | succ m ih =>
    rw [past_succ, ih, List.take_add_one, List.filterMap_append]
    congr 1
    cases es[m]? with
    | none => rfl
    | some e => simp only [Option.bind_some, Option.toList, List.filterMap_cons, List.filterMap_nil]; cases atOnce e <;> rfl

/-- The two goroutines that receive. -/
def demoManyPool : List REvent :=
  [.call 0 .receive, .call 1 .receive, .other .tau, .other .acceptOk, .other .tau, .other .acceptOk, .other (.read 1 { data := demoLineLoggedFrame }),
   .take 0 (.direct 1), .other (.read 0 { data := demoLineLoggedFrame.take 50 }), .other (.read 0 { data := demoLineLoggedFrame.drop 50 }),
   .take 1 (.direct 0), .ret 1, .ret 0, .call 1 .receive, .call 0 .receive]

theorem demoManyPool_run : ∃ f, rrun .lfEnded 0 rinit demoManyPool = some f ∧ f.s.crashed = false ∧ f.s.pipeline = [] ∧ f.s.pipelineClosed = false ∧ f.s.errs = 0 ∧
    f.s.conns.length = 2 ∧ (∀ c ∈ f.s.conns, c.pending = [] ∧ c.errPending = false) ∧ f.at_ 0 = .waiting ∧ f.at_ 1 = .waiting := by
  have h : (match rrun .lfEnded 0 rinit demoManyPool with
      | some f => !f.s.crashed && f.s.pipeline.isEmpty && !f.s.pipelineClosed && decide (f.s.errs = 0) && decide (f.s.conns.length = 2) &&
        (f.s.conns.all fun c => c.pending.isEmpty && !c.errPending) && (match f.at_ 0, f.at_ 1 with | .waiting, .waiting => true | _, _ => false)
      | none => false) = true := by decide +kernel
  cases hq : rrun .lfEnded 0 rinit demoManyPool with
  | none => rw [hq] at h; cases h
  | some f =>
    rw [hq] at h
    simp only [Bool.and_eq_true, Bool.not_eq_true', List.isEmpty_iff, decide_eq_true_eq, List.all_eq_true] at h
    obtain ⟨⟨⟨⟨⟨⟨a1, a2⟩, a3⟩, a4⟩, a5⟩, a6⟩, a7⟩ := h
    refine ⟨f, rfl, a1, a2, a3, a4, a5, a6, ?_⟩
    split at a7
    · next e1 e2 => exact ⟨e1, e2⟩
    · cases a7

/-- Every hypothesis of `C105_lines_partial` is met. -/
example : ∃ s0 s c0 prog ev st er sr, Syslog.new (some b!"host") 42 3 166 b!"app" = some s0 ∧ s0.channel 0 = .ret (s, c0) ∧ BeginLines s 3 prog ev ∧
    prog 1 1 = demoLineLog.take 1 ∧ prog 2 3 = demoLineLog.take 1 ∧ (∀ g n, ∀ c ∈ prog g n, LoggableLine 10 c) ∧
    FExec .lfEnded ev st ∧ RunnerScheduled .lfEnded ev st ∧ (∀ g, Scheduled .lfEnded g ev st) ∧ ErrorsRead (fun n => (st n).s) ∧
    (∀ n, (st n).s.crashed = false) ∧ Recovers (environment ev) ∧ (∀ n g, ev n ≠ some (.call g .endCall)) ∧
    (∀ n nb x, ev n = some (.other (.write nb (some x))) → nb = 0) ∧
    RExec .lfEnded 0 er sr ∧ (∀ n, (sr n).s.crashed = false) ∧ Worker .lfEnded 0 0 er sr ∧ Worker .lfEnded 0 1 er sr ∧ (∀ g, Returns .lfEnded 0 g er sr) ∧
    (ErrorsDrained fun n => (sr n).s) ∧
    (∀ j, Opened (fun n => (st n).s) j →
      Served .lfEnded 0 (id j) (fun n => (er n).bind atOnce) (fun n => (sr n).s) ∧ ∃ n, id j < (sr n).s.conns.length) ∧
    Links (fun n => (st n).s) id (fun n => (er n).bind atOnce) := by
  obtain ⟨f, hf, h1, h2, h3, h4, h5, h6, h7, h8⟩ := demoManyPool_run
  obtain ⟨r1, r2, r3, r4, r5, r6⟩ := rpool_fair hf h1 h2 h3 h4 h6 (by
    intro g
    match g with
    | 0 => exact Or.inl h7
    | 1 => exact Or.inl h8
    | g + 2 =>
      right
      refine untouched hf rfl ?_
      intro e he
      simp only [demoManyPool, List.mem_cons, List.not_mem_nil, or_false] at he
      rcases he with rfl | rfl | rfl | rfl | rfl | rfl | rfl | rfl | rfl | rfl | rfl | rfl | rfl | rfl | rfl <;> simp [isReceiverOf]) (by
    intro g h
    simp [demoManyPool] at h)
  obtain ⟨s0, s, c0, k1, k2, k3, k4, k5, k6, k7, k8, k9, k10, k11, k12⟩ := twoForever_meets
  have hpast := past_atOnce demoManyPool
  refine ⟨s0, s, c0, twoProgs, flassoEv twoForever 38 5, flassoSt .lfEnded twoForever 38 5, fun n => demoManyPool[n]?, rfinSt .lfEnded 0 demoManyPool,
    k1, k2, k3, rfl, rfl, ?_, k5, k6, k7, k8, k9, k10, k11, k12, r1, r2, r3 0 h7, r3 1 h8, r4, r5, ?_, ?_⟩
  · intro g n c hc
    exact demoLineLog_loggable c (k4 g n c hc)
  · intro j hj
    refine ⟨r6 j, 15, ?_⟩
    rw [rfin_end hf (by decide)]
    rcases twoForever_opened j hj with rfl | rfl <;> simp [h5]
  · refine twoForever_links (es := demoManyPool.filterMap atOnce) (N := 15) (fun m => ?_) ?_ (by decide +kernel) (by decide +kernel)
    · rw [hpast]
      conv => rhs; rw [← List.take_append_drop m demoManyPool, List.filterMap_append]
      exact List.prefix_append _ _
    · rw [hpast]; rfl

end Syslog5424
