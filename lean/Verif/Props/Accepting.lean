import Verif.Lemmas.FairReceiver
/-! # Property C85: a receiver keeps accepting connections, and ends -/
namespace Syslog5424
open Spec Recv

/-- What an event does to the goroutine that accepts. -/
theorem acceptor_step {t : Transport} {q : Nat} {s s' : State} {e : Event} (hs : step t q s e = some s') :
    (s.ended = true → s'.ended = true) ∧
    (e = .tau ∨ e = .acceptOk ∨ e = .acceptErr ∨ s'.pc = s.pc ∧ s'.pipelineClosed = s.pipelineClosed) ∧
    ((e = .acceptOk ∨ e = .acceptErr) → s.pc = .accept ∧ s'.pipelineClosed = s.pipelineClosed ∧ (s'.pc = .select ∨ s'.pc = .errSend)) ∧
    (e = .tau → s.pc = .select ∧ s'.pc = (if s.ended then .closePipe else .accept) ∧ s'.pipelineClosed = s.pipelineClosed ∨
      s.pc = .errSend ∧ s'.pc = .select ∧ s'.pipelineClosed = s.pipelineClosed ∨
      s.pc = .closePipe ∧ s'.pc = .closeListener ∧ s'.pipelineClosed = true ∨
      s.pc = .closeListener ∧ s'.pc = .done ∧ s'.pipelineClosed = s.pipelineClosed) := by
  unfold step at hs
  split at hs
  · simp at hs
  cases e with
  | tau =>
    simp only at hs
    split at hs
    case h_2 h =>
      split at hs
      · simp only [Option.some.injEq] at hs; subst hs; simp [h]
      · simp at hs
    case h_5 => simp at hs
    case h_1 h => simp only [Option.some.injEq] at hs; subst hs; simp [h]
    all_goals
      rename_i h
      simp only [Option.some.injEq] at hs; subst hs; simp [h]
  | acceptOk =>
    simp only at hs
    split at hs
    · rename_i h; simp only [Option.some.injEq] at hs; subst hs; simp [h]
    · simp at hs
  | acceptErr =>
    simp only at hs
    split at hs
    · rename_i h; simp only [Option.some.injEq] at hs; subst hs; simp [h]
    · simp at hs
  | endCall =>
    simp only at hs
    split at hs <;> (simp only [Option.some.injEq] at hs; subst hs; simp)
  | nilStart => simp only at hs; split at hs <;> simp at hs; subst hs; simp
  | recvClosed => simp only at hs; split at hs <;> simp at hs; subst hs; simp
  | recvErr => simp only at hs; split at hs <;> simp at hs; subst hs; simp
  | recv => simp only at hs; split at hs <;> simp at hs; subst hs; simp
  | read i r =>
    simp only at hs
    repeat' (split at hs)
    all_goals first | (simp at hs; done) | (simp only [Option.some.injEq] at hs; subst hs; simp [State.setConn])
  | sendErr i =>
    simp only at hs
    repeat' (split at hs)
    all_goals first | (simp at hs; done) | (simp only [Option.some.injEq] at hs; subst hs; simp [State.setConn])
  | sendMsg i =>
    simp only at hs
    repeat' (split at hs)
    all_goals first | (simp at hs; done) | (simp only [Option.some.injEq] at hs; subst hs; simp [State.setConn])
  | handoff i =>
    simp only at hs
    repeat' (split at hs)
    all_goals first | (simp at hs; done) | (simp only [Option.some.injEq] at hs; subst hs; simp [State.setConn])
  | close i =>
    simp only at hs
    repeat' (split at hs)
    all_goals first | (simp at hs; done) | (simp only [Option.some.injEq] at hs; subst hs; simp [State.setConn])

/-- How far the goroutine is from its end, when it does not accept. -/
def acceptRank (s : State) : Nat := match s.pc with
  | .errSend => 5
  | .select => 4
  | .accept => 3
  | .closePipe => 2
  | .closeListener => 1
  | .done => 0

theorem acceptor_enabled {t : Transport} {q : Nat} {s : State} (hc : s.crashed = false) (he : s.errs < errCap)
    (h1 : s.pc ≠ .accept) (h2 : s.pc ≠ .done) : step t q s .tau ≠ none := by
  simp only [step, hc]
  cases hp : s.pc <;> simp_all

section
variable {t : Transport} {q : Nat} {ev : Nat → Option Event} {st : Nat → State}

theorem acceptor_moves (hacc : Accepting t q ev st) (herr : ErrorsDrained st)
    (hc : ∀ n, (st n).crashed = false) (n : Nat) :
    ∃ m, n ≤ m ∧ ((∃ e, ev m = some e ∧ isAcceptor e = true) ∨ (st m).pc = .accept ∨ (st m).pc = .done) := by
  refine Classical.byContradiction fun hno => ?_
  have h : ∀ m, n ≤ m → (st m).pc ≠ .accept ∧ (st m).pc ≠ .done := by
    intro m hm
    refine ⟨fun h => hno ⟨m, hm, Or.inr (Or.inl h)⟩, fun h => hno ⟨m, hm, Or.inr (Or.inr h)⟩⟩
  obtain ⟨m, hm, e, h1, h2⟩ := hacc (by
    intro n'
    obtain ⟨m, hm, h1⟩ := herr (max n n')
    exact ⟨m, by omega, .tau, rfl, acceptor_enabled (hc m) h1 (h m (by omega)).1 (h m (by omega)).2⟩) n
  exact hno ⟨m, hm, Or.inl ⟨e, h1, h2⟩⟩

theorem acceptor_eq {e : Event} (h : isAcceptor e = true) : e = .tau := by
  cases e <;> simp [isAcceptor] at h ⊢

theorem acceptor_again (hx : ReceiverExec t q ev st) (hacc : Accepting t q ev st) (herr : ErrorsDrained st)
    (hc : ∀ n, (st n).crashed = false) (n : Nat) : ∃ m, n ≤ m ∧ ((st m).pc = .accept ∨ (st m).pc = .done) := by
  refine eventually hx isAcceptor (fun _ => True) (fun s => s.pc = .accept ∨ s.pc = .done) acceptRank n ?_ ?_ n (Nat.le_refl _) trivial
  · intro n' _ _
    exact acceptor_moves hacc herr hc n'
  · intro n' _ e he _ hG
    obtain ⟨_, h2, h3, h4⟩ := acceptor_step (hx.event n' e he)
    rcases h2 with rfl | h2 | h2 | ⟨h2, _⟩
    · rcases h4 rfl with ⟨g1, g2, _⟩ | ⟨g1, g2, _⟩ | ⟨g1, g2, _⟩ | ⟨g1, g2, _⟩
      · cases hend : (st n').ended with
        | false => rw [hend] at g2; exact Or.inl (Or.inl (by simpa using g2))
        | true => rw [hend] at g2; right; simp [acceptRank, g1, g2]
      · right; simp [acceptRank, g1, g2]
      · right; simp [acceptRank, g1, g2]
      · left; exact Or.inr g2
    · exact absurd (Or.inl (h3 (Or.inl h2)).1) hG
    · exact absurd (Or.inl (h3 (Or.inr h2)).1) hG
    · right
      refine ⟨trivial, ?_, ?_⟩
      · simp [acceptRank, h2]
      · intro hp
        have := acceptor_eq hp
        subst this
        rcases h4 rfl with ⟨g1, g2, _⟩ | ⟨g1, g2, _⟩ | ⟨g1, g2, _⟩ | ⟨g1, g2, _⟩
        · rw [h2, g1] at g2; split at g2 <;> cases g2
        all_goals rw [h2, g1] at g2; cases g2

theorem done_ended (hx : ReceiverExec t q ev st) (n : Nat) :
    ((st n).pc = .closePipe ∨ (st n).pc = .closeListener ∨ (st n).pc = .done → (st n).ended = true) ∧
    ((st n).pipelineClosed = true ↔ (st n).pc = .closeListener ∨ (st n).pc = .done) := by
  refine stays hx (fun s => (s.pc = .closePipe ∨ s.pc = .closeListener ∨ s.pc = .done → s.ended = true) ∧
    (s.pipelineClosed = true ↔ s.pc = .closeListener ∨ s.pc = .done)) 0 (by rw [hx.start]; simp [init]) ?_ n (Nat.zero_le _)
  intro m _ e he ⟨i1, i2⟩
  obtain ⟨h1, h2, h3, h4⟩ := acceptor_step (hx.event m e he)
  rcases h2 with rfl | h2 | h2 | ⟨h2, h2'⟩
  · rcases h4 rfl with ⟨g1, g2, g3⟩ | ⟨g1, g2, g3⟩ | ⟨g1, g2, g3⟩ | ⟨g1, g2, g3⟩
    · cases hend : (st m).ended with
      | false =>
        rw [hend] at g2
        rw [g2, g3, i2, g1]; simp
      | true =>
        have hend' := h1 hend
        rw [hend] at g2
        rw [g2, g3, i2, g1]; simp [hend']
    · rw [g2, g3, i2, g1]; simp
    · rw [g2, g3]; simp; exact h1 (i1 (Or.inl g1))
    · rw [g2, g3, i2, g1]; simp; exact h1 (i1 (Or.inr (Or.inl g1)))
  · obtain ⟨g1, g2, g3⟩ := h3 (Or.inl h2)
    rw [g2, i2, g1]
    rcases g3 with g3 | g3 <;> simp [g3]
  · obtain ⟨g1, g2, g3⟩ := h3 (Or.inr h2)
    rw [g2, i2, g1]
    rcases g3 with g3 | g3 <;> simp [g3]
  · rw [h2, h2']
    exact ⟨fun h => h1 (i1 h), i2⟩

end

/-- **C85.** In every endless execution of a receiver whose accepting goroutine keeps running, whose errors are read and
that does not crash: as long as `End` is not called, the goroutine is in `Accept` again and again (so a connection that
arrives is accepted), with any number of connections, failures of `Accept` and unread messages. -/
theorem C85_accepts (t : Transport) (lenQueue : Nat) (ev : Nat → Option Event) (st : Nat → State)
    (hx : ReceiverExec t lenQueue ev st) (hacc : Accepting t lenQueue ev st) (herr : ErrorsDrained st)
    (hc : ∀ n, (st n).crashed = false) (hend : ∀ n, ev n ≠ some .endCall) (n : Nat) :
    ∃ m s', n ≤ m ∧ step t lenQueue (st m) .acceptOk = some s' ∧ s'.conns.length = (st m).conns.length + 1 := by
  obtain ⟨m, hm, h | h⟩ := acceptor_again hx hacc herr hc n
  · exact ⟨m, { st m with conns := (st m).conns ++ [Conn.new], pc := .select }, hm, by simp [step, hc m, h], by simp⟩
  · exfalso
    have h1 := (done_ended hx m).1 (Or.inr (Or.inr h))
    have h2 := stays hx (fun s => s.ended = false) 0 (by rw [hx.start]; rfl) (by
      intro k _ e he hk
      have hs := hx.event k e he
      have hne : e ≠ .endCall := by rintro rfl; exact hend k he
      unfold step at hs
      split at hs
      · simp at hs
      cases e <;> simp only at hs <;> repeat' (split at hs)
      all_goals first | exact absurd rfl hne | (simp at hs; done) |
        (simp only [Option.some.injEq] at hs; rw [← hs]; simpa [State.setConn] using hk)) m (Nat.zero_le _)
    rw [h2] at h1; cases h1

/-- **C85.** Once `End` was called, if the call of `Accept` that is in progress (if any) returns, the receiver ends: the
listener is closed, and once what waits in the queue was received, every call of `Receive` from then on reports the end.
Nothing that was in the queue when it was closed is lost. -/
theorem C85_ends (t : Transport) (lenQueue : Nat) (ev : Nat → Option Event) (st : Nat → State)
    (hx : ReceiverExec t lenQueue ev st) (hacc : Accepting t lenQueue ev st) (herr : ErrorsDrained st)
    (hcons : Consumed t lenQueue ev st) (hc : ∀ n, (st n).crashed = false)
    (n : Nat) (hend : (st n).ended = true) (hret : ∃ m, n ≤ m ∧ (st m).pc ≠ .accept) :
    ∃ m, n ≤ m ∧ (st m).pc = .done ∧ (st m).got = (st n).got ++ ((st m).got.drop (st n).got.length) ∧
      (st n).pipeline <+: (st m).got.drop (st n).got.length ∧
      ∀ k, m ≤ k → step t lenQueue (st k) .recvClosed = some (st k) ∧ (st k).got = (st m).got := by
  obtain ⟨m0, hm0, hp0⟩ := hret
  have hended : ∀ m, n ≤ m → (st m).ended = true :=
    stays hx (fun s => s.ended = true) n hend fun m _ e he h => (acceptor_step (hx.event m e he)).1 h
  -- the goroutine never accepts again
  have hnoacc : ∀ m, m0 ≤ m → (st m).pc ≠ .accept := by
    have := stays hx (fun s => s.pc ≠ .accept ∧ s.ended = true) m0 ⟨hp0, hended m0 hm0⟩ (by
      intro m hm e he ⟨h, hen⟩
      obtain ⟨h1, h2, h3, h4⟩ := acceptor_step (hx.event m e he)
      refine ⟨?_, h1 hen⟩
      rcases h2 with rfl | h2 | h2 | ⟨h2, _⟩
      · rcases h4 rfl with ⟨g1, g2, _⟩ | ⟨g1, g2, _⟩ | ⟨g1, g2, _⟩ | ⟨g1, g2, _⟩
        · rw [g2, hen]; simp
        all_goals rw [g2]; simp
      · exact absurd (h3 (Or.inl h2)).1 h
      · exact absurd (h3 (Or.inr h2)).1 h
      · rw [h2]; exact h)
    exact fun m hm => (this m hm).1
  obtain ⟨m1, hm1, hd⟩ := acceptor_again hx hacc herr hc m0
  have hdone : (st m1).pc = .done := by
    rcases hd with h | h
    · exact absurd h (hnoacc m1 hm1)
    · exact h
  have hstay : ∀ m, m1 ≤ m → (st m).pc = .done := by
    refine stays hx (fun s => s.pc = .done) m1 hdone ?_
    intro m hm e he h
    obtain ⟨h1, h2, h3, h4⟩ := acceptor_step (hx.event m e he)
    rcases h2 with rfl | h2 | h2 | ⟨h2, _⟩
    · rcases h4 rfl with ⟨g1, _⟩ | ⟨g1, _⟩ | ⟨g1, _⟩ | ⟨g1, _⟩ <;> (rw [h] at g1; cases g1)
    · have := (h3 (Or.inl h2)).1; rw [h] at this; cases this
    · have := (h3 (Or.inr h2)).1; rw [h] at this; cases this
    · rw [h2]; exact h
  have hclosed : ∀ m, m1 ≤ m → (st m).pipelineClosed = true := fun m hm => (done_ended hx m).2.mpr (Or.inr (hstay m hm))
  -- nothing enters a closed queue
  have hsame : ∀ m, m1 ≤ m → (st m).got ++ (st m).pipeline = (st m1).got ++ (st m1).pipeline := by
    have := stays hx (fun s => s.pipelineClosed = true ∧ s.got ++ s.pipeline = (st m1).got ++ (st m1).pipeline) m1
      ⟨hclosed m1 (Nat.le_refl _), rfl⟩ (by
        intro m hm e he ⟨h1, h2⟩
        refine ⟨hclosed (m + 1) (by omega), ?_⟩
        have hs := hx.event m e he
        have hcr := hc (m + 1)
        unfold step at hs
        split at hs
        · simp at hs
        cases e with
        | sendMsg i =>
          simp only at hs
          repeat' (split at hs)
          all_goals first | (simp at hs; done) | skip
          all_goals first | (simp only [Option.some.injEq] at hs; rw [← hs] at hcr; simp at hcr; done) | (rename_i h _; exact absurd h1 h)
        | handoff i =>
          simp only at hs
          repeat' (split at hs)
          all_goals first | (simp at hs; done) | skip
          rename_i h
          simp [h1] at h
        | recv =>
          simp only at hs
          split at hs
          · simp at hs
          · rename_i hp
            simp only [Option.some.injEq] at hs
            rw [← hs]
            rw [hp] at h2
            simpa using h2
        | _ =>
          simp only at hs
          repeat' (split at hs)
          all_goals first | (simp at hs; done) | (simp only [Option.some.injEq] at hs; rw [← hs]; simpa [State.setConn] using h2))
    exact fun m hm => (this m hm).2
  obtain ⟨m2, hm2, hpre⟩ := queue_received hx hcons hc m1
  have hgot : ∀ k, m2 ≤ k → (st k).pipeline = [] ∧ (st k).got = (st m2).got := by
    have e2 := hsame m2 hm2
    have e3 : (st m2).pipeline = [] := by
      have l1 := hpre.length_le
      have l2 := congrArg List.length e2
      simp only [List.length_append] at l1 l2
      exact List.eq_nil_of_length_eq_zero (by omega)
    intro k hk
    have e4 := hsame k (by omega)
    have mono : (st m2).got.length ≤ (st k).got.length := by
      have := stays hx (fun s => (st m2).got.length ≤ s.got.length) m2 (Nat.le_refl _) (by
        intro m _ e he h
        exact Nat.le_trans h (step_fifo (hx.event m e he)).2.1) k hk
      exact this
    rw [e3, List.append_nil] at e2
    have l4 := congrArg List.length e4
    have l2 := congrArg List.length e2
    simp only [List.length_append] at l4 l2
    have e5 : (st k).pipeline = [] := List.eq_nil_of_length_eq_zero (by omega)
    rw [e5, List.append_nil, ← e2] at e4
    exact ⟨e5, e4⟩
  have hall := (fifo_mono hx (n := n) (m := m2) (by omega))
  rw [(hgot m2 (Nat.le_refl _)).1, List.append_nil] at hall
  obtain ⟨r, hr⟩ := hall
  refine ⟨m2, by omega, hstay m2 hm2, ?_, ?_, ?_⟩
  · rw [← hr]; simp
  · rw [← hr]; simp
  · intro k hk
    obtain ⟨g1, g2⟩ := hgot k hk
    refine ⟨?_, g2⟩
    simp [step, hc k, hclosed k (by omega), g1]

/-- **C85 fails** for a receiver that waits in `Accept`: an endless execution in which everybody keeps running, `End` is
called, and the receiver never ends, because no connection comes. -/
theorem C85_stuck_violated (t : Transport) (lenQueue : Nat) :
    ∃ ev st, ReceiverExec t lenQueue ev st ∧ Accepting t lenQueue ev st ∧ ErrorsDrained st ∧ Consumed t lenQueue ev st ∧
      (∀ n, (st n).crashed = false) ∧ ev 1 = some .endCall ∧
      ∀ n, (st n).pc ≠ .done ∧ (st n).pipelineClosed = false ∧ step t lenQueue (st n) .recvClosed = none := by
  have hrun : run t lenQueue init [.tau, .endCall] = some ⟨.accept, [], false, 0, true, [], 0, [], false⟩ := rfl
  obtain ⟨f1, f2, _⟩ := fin_fair hrun rfl (by decide) (by simp) 0
  have hst : ∀ n, finSt t lenQueue [.tau, .endCall] n = init ∨ finSt t lenQueue [.tau, .endCall] n = { init with pc := .accept } ∨
      finSt t lenQueue [.tau, .endCall] n = { init with pc := .accept, ended := true } := by
    intro n
    match n with
    | 0 => exact Or.inl rfl
    | 1 => exact Or.inr (Or.inl rfl)
    | n + 2 => exact Or.inr (Or.inr (fin_end hrun (by simp)))
  refine ⟨_, _, fin_exec hrun, ?_, f2, f1, fin_alive hrun rfl, rfl, ?_⟩
  · intro hen
    obtain ⟨m, hm, e, h1, h2⟩ := hen 2
    have := acceptor_eq h1
    subst this
    rw [fin_end hrun hm] at h2
    simp [step] at h2
  · intro n
    rcases hst n with h | h | h <;> rw [h] <;> simp [init, step]

/-- An execution that meets the hypotheses of `C85_accepts`: a connection comes, then no other. -/
example : ∃ ev st, ReceiverExec .rfc5425 0 ev st ∧ Accepting .rfc5425 0 ev st ∧ ErrorsDrained st ∧
    (∀ n, (st n).crashed = false) ∧ (∀ n, ev n ≠ some .endCall) ∧ ev 1 = some .acceptOk := by
  have hrun : run .rfc5425 0 init [.tau, .acceptOk, .tau] = some ⟨.accept, [], false, 0, false, [Conn.new], 0, [], false⟩ := rfl
  obtain ⟨f1, f2, _⟩ := fin_fair hrun rfl (by decide) (by simp [Conn.new]) 0
  refine ⟨_, _, fin_exec hrun, ?_, f2, fin_alive hrun rfl, ?_, rfl⟩
  · intro hen
    obtain ⟨m, hm, e, h1, h2⟩ := hen 3
    have := acceptor_eq h1
    subst this
    rw [fin_end hrun hm] at h2
    simp [step] at h2
  · intro n
    match n with
    | 0 => simp
    | 1 => simp
    | 2 => simp
    | n + 3 => simp

/-- An execution that meets the hypotheses of `C85_ends`: a connection comes after `End`. -/
example : ∃ ev st, ReceiverExec .rfc5425 0 ev st ∧ Accepting .rfc5425 0 ev st ∧ ErrorsDrained st ∧ Consumed .rfc5425 0 ev st ∧
    (∀ n, (st n).crashed = false) ∧ (st 2).ended = true ∧ (∃ m, 2 ≤ m ∧ (st m).pc ≠ .accept) := by
  have hrun : run .rfc5425 0 init [.tau, .endCall, .acceptOk, .tau, .tau, .tau] = some ⟨.done, [], true, 0, true, [Conn.new], 0, [], false⟩ := rfl
  obtain ⟨f1, f2, _⟩ := fin_fair hrun rfl (by decide) (by simp [Conn.new]) 0
  refine ⟨_, _, fin_exec hrun, ?_, f2, f1, fin_alive hrun rfl, rfl, 3, by omega, by show PC.select ≠ _; simp⟩
  intro hen
  obtain ⟨m, hm, e, h1, h2⟩ := hen 6
  have := acceptor_eq h1
  subst this
  rw [fin_end hrun hm] at h2
  simp [step] at h2

end Syslog5424
