import Verif.Props.Exit
/-! # C114: an execution that meets the hypotheses, with the RFC 5425 transport

The program of the example of `Props/Exit.lean`. -/
namespace Syslog5424
open Spec Sender Recv

def demo5425Frame : Bytes := Transport.rfc5425.encode (demoLineLoggedFrame.take 60)

theorem demo5425_frame : frameOf .rfc5425 demoLineLogged = demo5425Frame := by decide +kernel

theorem demo5425_fits : FitsDatagram .rfc5425 demoLineLogged := by
  refine ⟨demo_fits.toIntact, fun b hb => ?_, fun z hz => by cases hz⟩
  have h := demo5425_frame
  simp only [frameOf, hb] at h
  rw [h]
  decide +kernel

def exit5425 : List FEvent :=
  [.call 1 (.send demoLineLogged), .tau 1, .call 2 (.send demoLineLogged)] ++
  ([.tau 1, .tau 1, .tau 1, .ret 1, .tau 2, .tau 2, .tau 2, .tau 2, .ret 2, .call 3 .endCall, .tau 3] ++
  ([.seeEnd, .tau, .tau, .connect none, .tau, .tau, .write 63 none, .write 63 none, .tau, .tau, .tau, .tau, .tau, .tau, .tau] : List Sender.Event).map .other ++ [.ret 3])

theorem exit5425_run : (frun .rfc5425 finit exit5425).isSome = true := by decide +kernel

theorem exit5425_exec : FExec .rfc5425 (fun n => exit5425[n]?) (fafter .rfc5425 exit5425) := by
  refine ⟨rfl, ?_, ?_⟩
  · intro n e he
    have h1 := fafter_run exit5425_run n
    have h2 := fafter_run exit5425_run (n + 1)
    rw [List.take_add_one, he, Option.toList_some, frun_append, h1] at h2
    simpa [frun] using h2
  · intro n he
    have hl : exit5425.length ≤ n := List.getElem?_eq_none_iff.mp he
    unfold fafter
    rw [List.take_of_length_le hl, List.take_of_length_le (by omega)]

theorem exit5425_past (n : Nat) : past (fun n => exit5425[n]?) n = exit5425.take n := by
  induction n with
  | zero => rfl
  | succ n ih => rw [past_succ, ih, List.take_add_one]

theorem exit5425_given (g n : Nat) : givenBy g (past (fun n => exit5425[n]?) n) = if g = 1 ∧ 0 < n ∨ g = 2 ∧ 2 < n then [demoLineLogged] else [] := by
  rw [exit5425_past]
  have happ : ∀ a b : List FEvent, givenBy g (a ++ b) = givenBy g a ++ givenBy g b := by
    intro a b
    unfold givenBy
    rw [called_append]
    simp [messagesOf]
  have key : ∀ l : List FEvent, givenBy g (.call 1 (.send demoLineLogged) :: l) = (if g = 1 then [demoLineLogged] else []) ++ givenBy g l := by
    intro l
    by_cases hg : g = 1
    · simp [givenBy, called, hg, messagesOf]
    · simp [givenBy, called, hg, messagesOf, Ne.symm hg]
  match n with
  | 0 => simp [givenBy, called, messagesOf]
  | 1 =>
    rw [show exit5425.take 1 = .call 1 (.send demoLineLogged) :: [] from rfl, key]
    simp [givenBy, called, messagesOf]
  | 2 =>
    rw [show exit5425.take 2 = .call 1 (.send demoLineLogged) :: [.tau 1] from rfl, key]
    simp [givenBy, called, messagesOf]
  | n + 3 =>
    have e : exit5425.take (n + 3) = .call 1 (.send demoLineLogged) :: .tau 1 :: .call 2 (.send demoLineLogged) :: (exit5425.drop 3).take n := rfl
    have hd : givenBy g ((exit5425.drop 3).take n) = [] := by
      apply no_sends
      intro e he g m
      have := List.mem_of_mem_take he
      have hall : ((exit5425.drop 3).all fun e => match e with | .call _ (.send _) => false | _ => true) = true := by decide +kernel
      have := List.all_eq_true.mp hall e this
      rintro rfl
      cases this
    have k2 : givenBy g (.tau 1 :: .call 2 (.send demoLineLogged) :: (exit5425.drop 3).take n) = (if g = 2 then [demoLineLogged] else []) ++ givenBy g ((exit5425.drop 3).take n) := by
      by_cases hg : g = 2
      · simp [givenBy, called, hg, messagesOf]
      · simp [givenBy, called, hg, messagesOf, Ne.symm hg]
    rw [e, key, k2, hd]
    by_cases h1 : g = 1
    · simp [h1]
    · by_cases h2 : g = 2 <;> simp [h1, h2]

theorem exit5425_ends : EndsAndExits .rfc5425 (fun n => exit5425[n]?) (fafter .rfc5425 exit5425) 12 29 where
  exec := exit5425_exec
  whole := by
    intro n nb x he
    have hm := List.mem_of_getElem? he
    have hall : (exit5425.all fun e => match e with | .other (.write _ (some _)) => false | _ => true) = true := by decide +kernel
    have := List.all_eq_true.mp hall _ hm
    cases this
  ends := by
    refine ⟨3, rfl, by omega, rfl, ?_⟩
    intro j h1 h2 he
    have hall : ∀ j, j < 29 → (match (exit5425[(j : Nat)]?) with | some (FEvent.ret 3) => false | _ => true) = true := by decide +kernel
    have := hall j h2
    change exit5425[j]? = _ at he
    rw [he] at this
    cases this

theorem exit5425_quiet : NoSendUnderWay (fun n => exit5425[n]?) 12 := by
  intro g
  rw [exit5425_past]
  have e : exit5425.take 12 = [.call 1 (.send demoLineLogged), .tau 1, .call 2 (.send demoLineLogged), .tau 1, .tau 1, .tau 1, .ret 1, .tau 2, .tau 2, .tau 2, .tau 2, .ret 2] := rfl
  rw [e]
  by_cases h1 : g = 1
  · subst h1; rfl
  · by_cases h2 : g = 2
    · subst h2; rfl
    · simp [returnedBy, givenBy, called, Ne.symm h1, Ne.symm h2, messagesOf]

theorem exit5425_packets : ∀ i, i < 31 → packets (fafter .rfc5425 exit5425 i).s =
    if i ≤ 20 then [] else if i ≤ 21 then [demo5425Frame] else [demo5425Frame, demo5425Frame] := by decide +kernel

theorem exit5425_after (n : Nat) : fafter .rfc5425 exit5425 n = fafter .rfc5425 exit5425 (min n 30) := by
  unfold fafter
  rw [show min n 30 = min n exit5425.length from rfl, ← List.take_take, List.take_length]

theorem exit5425_some (n : Nat) : packets (fafter .rfc5425 exit5425 n).s <+: [demo5425Frame, demo5425Frame] := by
  rw [exit5425_after, exit5425_packets _ (by omega)]
  split
  · exact List.nil_prefix
  · split
    · exact ⟨[demo5425Frame], rfl⟩
    · exact List.prefix_rfl

/-- The program of the example. -/
theorem exit5425_logs : ∃ P : LoggingProgram, P.Logs .rfc5425 ∧ P.ev = (fun n => exit5425[n]?) ∧ P.st = fafter .rfc5425 exit5425 ∧
    P.lines = twoProgs ∧ P.host = some b!"host" ∧ P.pid = 42 ∧ P.prio = 166 ∧ P.app = b!"app" := by
  obtain ⟨s0, s, c0, k1, k2, k3, k4, _⟩ := twoForever_meets
  have hb : BeginLines s 3 twoProgs (fun n => exit5425[n]?) := by
    refine ⟨k3.1, fun g n => ?_⟩
    rw [exit5425_given, ← twoForever_given]
    exact k3.2 g n
  refine ⟨⟨some b!"host", 42, 3, 166, b!"app", s0, s, 0, c0, twoProgs, fun n => exit5425[n]?, fafter .rfc5425 exit5425⟩,
    ⟨by show 42 < 2 ^ 63; decide, k1, k2, ?_, ?_, hb, ?_⟩, rfl, rfl, rfl, rfl, rfl, rfl, rfl⟩
  · intro g n c hc
    have := demoLineLog_loggable c (k4 g n c hc)
    exact ⟨this.time, ⟨[], by rw [this.sd]; exact ⟨rfl, by simp⟩⟩, fun h => absurd this.sd h⟩
  · intro z hz; cases hz
  · intro n g m hm b hb
    have hall : (exit5425.all fun e => match e with
      | FEvent.call _ (.send m) => (match m.marshal with | .ret (.ok b) => decide ((Transport.rfc5425.encode b).length ≤ 500) | _ => true)
      | _ => true) = true := by decide +kernel
    have := List.all_eq_true.mp hall _ (List.mem_of_getElem? hm)
    simp only [hb, decide_eq_true_eq] at this
    exact this

/-! The two goroutines that receive. -/

def pool5425 : List REvent :=
  [.call 0 .receive, .call 1 .receive, .other .tau, .other .acceptOk,
   .other (.read 0 { data := demo5425Frame }), .take 0 (.direct 0), .ret 0, .call 0 .receive,
   .other (.read 0 { data := demo5425Frame }), .take 1 (.direct 0), .ret 1, .call 1 .receive]

theorem pool5425_run : ∃ f, rrun .rfc5425 0 rinit pool5425 = some f ∧ AtEase f := by
  have h0 : ∃ f, rrun .rfc5425 0 rinit (pool5425.take 4) = some f ∧ AtEase f :=
    ⟨_, rfl, rfl, rfl, rfl, rfl, ⟨Conn.new, rfl, atRest_init, rfl, rfl, rfl⟩, rfl, rfl⟩
  obtain ⟨f0, r0, h0⟩ := h0
  obtain ⟨f1, r1, h1⟩ := ease_round_of demo5425_frame demo5425_fits h0 0 (.inl rfl)
  obtain ⟨f2, r2, h2⟩ := ease_round_of demo5425_frame demo5425_fits h1 1 (.inr rfl)
  refine ⟨f2, ?_, h2⟩
  have e : pool5425 = pool5425.take 4 ++ ([.other (.read 0 { data := demo5425Frame }), .take 0 (.direct 0), .ret 0, .call 0 .receive] ++
    [.other (.read 0 { data := demo5425Frame }), .take 1 (.direct 0), .ret 1, .call 1 .receive]) := rfl
  rw [e, rrun_append, r0, Option.bind_some, rrun_append, r1, Option.bind_some, r2]

theorem exit5425_conns : ∀ i, i < 31 → (fafter .rfc5425 exit5425 i).s.conns.length = (if i ≤ 17 then 0 else 1) ∧
    connBytes 0 (fafter .rfc5425 exit5425 i).s = (packets (fafter .rfc5425 exit5425 i).s).flatten := by decide +kernel

/-- All the hypotheses of `C114_logged_partial` (and with it of `C114_delivered_partial`) are met. -/
example : ∃ m q a d, demoLineLog.take 1 <+: ofGoroutine 1 a ∧ demoLineLog.take 1 <+: ofGoroutine 2 a ∧
    Each (Says (some b!"host") 42 166 b!"app") (a.map (·.2)) ((receivedOver id q (d.map (·.2))).take a.length) ∧
    ∀ g, ofGoroutine g d <+: messages (returnedTo g (rfinSt .rfc5425 0 pool5425 m)) := by
  obtain ⟨f, hf, hat⟩ := pool5425_run
  obtain ⟨c, hc1, _, _, hc2⟩ := hat.one
  obtain ⟨r1, r2, r3, r4, r5, r6⟩ := rpool_fair hf hat.lives hat.pipe hat.opened hat.errs (by
      intro c' hc'
      rw [hc1, List.mem_singleton] at hc'
      subst hc'; exact hc2) (by
    intro g
    match g with
    | 0 => exact Or.inl hat.zero
    | 1 => exact Or.inl hat.first
    | g + 2 =>
      right
      refine untouched hf rfl ?_
      intro e he
      simp only [pool5425, List.mem_cons, List.not_mem_nil, or_false] at he
      rcases he with rfl | rfl | rfl | rfl | rfl | rfl | rfl | rfl | rfl | rfl | rfl | rfl <;> simp [isReceiverOf]) (by
    intro g h
    simp [pool5425] at h)
  obtain ⟨P, w, e1, e2, e3, e4, e5, e6, e7⟩ := exit5425_logs
  have hopened : ∀ j, Opened (fun n => (fafter .rfc5425 exit5425 n).s) j → j = 0 := by
    rintro j ⟨n, hn⟩
    simp only [exit5425_after n, (exit5425_conns (min n 30) (by omega)).1] at hn
    split at hn <;> omega
  have hbytes : ∀ n, connBytes 0 (fafter .rfc5425 exit5425 n).s <+: demo5425Frame ++ demo5425Frame := by
    intro n
    rw [exit5425_after, (exit5425_conns (min n 30) (by omega)).2]
    obtain ⟨r, hr⟩ := exit5425_some (min n 30)
    have := congrArg List.flatten hr
    rw [List.flatten_append] at this
    refine ⟨r.flatten, this.trans ?_⟩
    simp
  have hall : arrived (readsOf 0 (pool5425.filterMap atOnce)) = demo5425Frame ++ demo5425Frame := by decide +kernel
  have h29 : connBytes 0 (fafter .rfc5425 exit5425 29).s = demo5425Frame ++ demo5425Frame := by
    rw [(exit5425_conns 29 (by omega)).2, exit5425_packets 29 (by omega)]; simp
  obtain ⟨m, q, a, d, ⟨n', ha⟩, g3, g4⟩ := C114_logged_partial P.host P.pid P.out P.prio P.app w.pid P.log0 P.log P.sev P.chan
    w.new w.first P.lines w.loggable P.ev P.st w.logs (fun n g m hm b hb => by
      have := w.size n g m hm b hb
      have h2 : b.length ≤ (Transport.rfc5425.encode b).length := by simp [Transport.encode]; omega
      omega) 12 29 (by rw [e1, e2]; exact exit5425_ends) (by rw [e1]; exact exit5425_quiet) 0 (fun n => pool5425[n]?)
    (rfinSt .rfc5425 0 pool5425) r1 r2 0 (r3 0 hat.zero) r4 r5 id (by
      rw [e2]
      intro j hj
      refine ⟨r6 j, 12, ?_⟩
      rw [rfin_end hf (by decide), hc1, hopened j hj]
      exact Nat.zero_lt_one) (by
      rw [e2]
      refine ⟨?_, ?_⟩
      · intro j hj m
        rw [hopened j hj]
        refine ⟨29, ?_⟩
        show arrived (readsOf 0 _) <+: _
        rw [h29, past_atOnce, ← hall]
        conv => rhs; rw [← List.take_append_drop m pool5425, List.filterMap_append, Recv.readsOf_append]
        simp only [arrived, List.flatMap_append]
        exact List.prefix_append _ _
      · intro j hj n
        rw [hopened j hj]
        refine ⟨12, ?_⟩
        show _ <+: arrived (readsOf 0 _)
        rw [past_atOnce, List.take_of_length_le (by decide), hall]
        exact hbytes n)
  rw [e4, e5, e6, e7] at g3
  rw [e6, e3] at ha
  have hp : passing 166 (demoLineLog.take 1) = demoLineLog.take 1 := by with_unfolding_all rfl
  have k1 := (ha 1).1
  have k2 := (ha 2).1
  rw [show twoProgs 1 12 = demoLineLog.take 1 from rfl, hp] at k1
  rw [show twoProgs 2 12 = demoLineLog.take 1 from rfl, hp] at k2
  exact ⟨m, q, a, d, k1, k2, g3, g4⟩

end Syslog5424
