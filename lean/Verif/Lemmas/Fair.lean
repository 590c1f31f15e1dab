import Verif.Spec.Fair
import Verif.Lemmas.Sender
/-! # Lemmas: what happens eventually -/
namespace Syslog5424
open Spec

section
variable {σ ε : Type} {step : σ → ε → Option σ} {init : σ} {ev : Nat → Option ε} {st : Nat → σ}

theorem past_succ (ev : Nat → Option ε) (n : Nat) : past ev (n + 1) = past ev n ++ (ev n).toList := by
  unfold past
  rw [List.range_succ, List.filterMap_append]
  cases h : ev n <;> simp [h]

theorem past_prefix (ev : Nat → Option ε) {n m : Nat} (h : n ≤ m) : past ev n <+: past ev m := by
  induction h with
  | refl => exact List.prefix_refl _
  | step _ ih => rw [past_succ]; exact ih.trans (List.prefix_append _ _)

/-- Something that no event changes stays. -/
theorem stays (hx : Exec step init ev st) (P : σ → Prop) (n : Nat) (hP : P (st n))
    (hstep : ∀ m, n ≤ m → ∀ e, ev m = some e → P (st m) → P (st (m + 1))) : ∀ m, n ≤ m → P (st m) := by
  intro m hm
  induction hm with
  | refl => exact hP
  | @step m hm ih =>
    cases h : ev m with
    | none => rw [hx.nothing m h]; exact ih
    | some e => exact hstep m hm e h ih

/-- A rank that no event increases, and that the events of the kind `p` decrease, leads to the goal. -/
theorem eventually (hx : Exec step init ev st) (p : ε → Bool) (I G : σ → Prop) (rank : σ → Nat) (N : Nat)
    (hmove : ∀ n, N ≤ n → I (st n) → ∃ m, n ≤ m ∧ ((∃ e, ev m = some e ∧ p e = true) ∨ G (st m)))
    (hrun : ∀ n, N ≤ n → ∀ e, ev n = some e → I (st n) → ¬ G (st n) →
      G (st (n + 1)) ∨ (I (st (n + 1)) ∧ rank (st (n + 1)) ≤ rank (st n) ∧ (p e = true → rank (st (n + 1)) < rank (st n)))) :
    ∀ n, N ≤ n → I (st n) → ∃ m, n ≤ m ∧ G (st m) := by
  have key : ∀ k n, N ≤ n → I (st n) → rank (st n) ≤ k → ∃ m, n ≤ m ∧ G (st m) := by
    intro k
    induction k with
    | zero =>
      intro n hn hI hk
      refine Classical.byContradiction fun hno => ?_
      have hG : ∀ m, n ≤ m → ¬ G (st m) := fun m hm h => hno ⟨m, hm, h⟩
      obtain ⟨m, hm, h⟩ := hmove n hn hI
      have hall := stays hx (fun s => I s ∧ rank s ≤ 0) n ⟨hI, hk⟩ (by
        intro m hm e he ⟨h1, h2⟩
        rcases hrun m (by omega) e he h1 (hG m hm) with h | ⟨h3, h4, _⟩
        · exact absurd h (hG (m + 1) (by omega))
        · exact ⟨h3, by omega⟩) m hm
      rcases h with ⟨e, he, hp⟩ | h
      · rcases hrun m (by omega) e he hall.1 (hG m hm) with h | ⟨_, _, h⟩
        · exact hG (m + 1) (by omega) h
        · have := h hp; omega
      · exact hG m hm h
    | succ k ih =>
      intro n hn hI hk
      refine Classical.byContradiction fun hno => ?_
      have hG : ∀ m, n ≤ m → ¬ G (st m) := fun m hm h => hno ⟨m, hm, h⟩
      obtain ⟨m, hm, h⟩ := hmove n hn hI
      have hall := stays hx (fun s => I s ∧ rank s ≤ k + 1) n ⟨hI, hk⟩ (by
        intro m hm e he ⟨h1, h2⟩
        rcases hrun m (by omega) e he h1 (hG m hm) with h | ⟨h3, h4, _⟩
        · exact absurd h (hG (m + 1) (by omega))
        · exact ⟨h3, by omega⟩) m hm
      rcases h with ⟨e, he, hp⟩ | h
      · rcases hrun m (by omega) e he hall.1 (hG m hm) with h | ⟨h3, _, h⟩
        · exact hG (m + 1) (by omega) h
        · have := h hp
          obtain ⟨m', hm', hg⟩ := ih (m + 1) (by omega) h3 (by omega)
          exact hG m' (by omega) hg
      · exact hG m hm h
  intro n hn hI
  exact key _ n hn hI (Nat.le_refl _)

end

namespace Sender

theorem history_past {t : Transport} {ev : Nat → Option Event} {st : Nat → State} (hx : SenderExec t ev st) (n : Nat) :
    History t (past ev n) (st n) := by
  induction n with
  | zero => simp [past, History, run, hx.start]
  | succ n ih =>
    rw [past_succ]
    cases h : ev n with
    | none => simpa [hx.nothing n h] using ih
    | some e =>
      refine run_append ih ?_
      simp [run, hx.event n e h]

theorem inv_at {t : Transport} {ev : Nat → Option Event} {st : Nat → State} (hx : SenderExec t ev st) (n : Nat) :
    Inv (frames t (past ev n)) (st n) := inv_history (history_past hx n)

/-- The goroutine can go on, unless it is waiting for room on the error channel, or done. -/
theorem runner_enabled {t : Transport} {fr : List Bytes} {s : State} (hi : Inv fr s) (hc : s.crashed = false) (hd : s.pc ≠ .done)
    (he : (∃ f e, s.pc = .errConn f e ∨ s.pc = .errWrite f e) → s.errs = []) :
    ∃ e s', isRunner e = true ∧ step t s e = some s' := by
  obtain ⟨_, _, hl, _, _, _, _, _⟩ := hi
  obtain ⟨queue, conns, output, locked, errs, endAsked, endCompleted, errClosed, crashed, pc⟩ := s
  simp only at hc hd he hl
  subst hc
  cases pc with
  | select => exact ⟨.tick, _, rfl, rfl⟩
  | test f => exact ⟨.tau, _, rfl, rfl⟩
  | connect f => exact ⟨.connect none, _, rfl, rfl⟩
  | errConn f e =>
    have := he ⟨f, e, Or.inl rfl⟩
    subst this
    exact ⟨.tau, _, rfl, rfl⟩
  | lock f =>
    simp only [holds] at hl
    subst hl
    exact ⟨.tau, _, rfl, rfl⟩
  | loop f => exact ⟨.tau, _, rfl, rfl⟩
  | write f k n =>
    cases hx : queue[k]? with
    | none =>
      have hk : ¬ k < queue.length := by
        intro hlt; rw [List.getElem?_eq_getElem hlt] at hx; simp at hx
      exact ⟨.tau, _, rfl, by simp only [step, Bool.false_eq_true, if_false, if_neg hk]; rfl⟩
    | some b =>
      exact ⟨.write b.length none, _, rfl, by simp only [step, Bool.false_eq_true, if_false, hx, Nat.le_refl, if_true]; rfl⟩
  | errWrite f e =>
    have := he ⟨f, e, Or.inr rfl⟩
    subst this
    exact ⟨.tau, _, rfl, rfl⟩
  | unlock f => exact ⟨.tau, _, rfl, rfl⟩
  | drain => exact ⟨.tau, _, rfl, rfl⟩
  | closeOut => cases output <;> exact ⟨.tau, _, rfl, rfl⟩
  | closeDone => exact ⟨.tau, _, rfl, rfl⟩
  | closeErr => exact ⟨.tau, _, rfl, rfl⟩
  | done => exact absurd rfl hd

/-- What the others do does not move the goroutine. -/
theorem other_keeps {t : Transport} {s s' : State} {e : Event} (hr : isRunner e = false) (hs : step t s e = some s') :
    s'.pc = s.pc ∧ (s.errs = [] → s'.errs = []) ∧ (s.endAsked = true → s'.endAsked = true) ∧ s'.output = s.output ∧
    (s.locked = true → s'.queue = s.queue) ∧ ((∀ m, e ≠ .send m) → s'.queue = s.queue) := by
  obtain ⟨_, htr⟩ := step_tr hs
  cases htr <;> simp_all [isRunner]

/-- In a fair execution in which errors are read, the goroutine moves again and again until it is done (or the program
crashes). -/
theorem runner_moves {t : Transport} {ev : Nat → Option Event} {st : Nat → State} (hx : SenderExec t ev st)
    (hfair : Running t ev st) (herr : ErrorsRead st) (n : Nat) :
    ∃ m, n ≤ m ∧ ((∃ e, ev m = some e ∧ isRunner e = true) ∨ (st m).pc = .done ∨ (st m).crashed = true) := by
  refine Classical.byContradiction fun hno => ?_
  have hr : ∀ m, n ≤ m → ∀ e, ev m = some e → isRunner e = false := by
    intro m hm e he
    cases h : isRunner e with
    | false => rfl
    | true => exact absurd ⟨m, hm, Or.inl ⟨e, he, h⟩⟩ hno
  have hd : ∀ m, n ≤ m → (st m).pc ≠ .done := fun m hm h => hno ⟨m, hm, Or.inr (Or.inl h)⟩
  have hc : ∀ m, n ≤ m → (st m).crashed = false := by
    intro m hm
    cases h : (st m).crashed with
    | false => rfl
    | true => exact absurd ⟨m, hm, Or.inr (Or.inr h)⟩ hno
  -- an empty error channel stays empty, and the goroutine can go on
  have hcontra : ∀ m, n ≤ m → (st m).errs = [] → False := by
    intro m hm he
    obtain ⟨m', hm', h⟩ := hfair m
    have he' := stays hx (fun s => s.errs = []) m he (by
      intro j hj e hej h
      exact (other_keeps (hr j (by omega) e hej) (hx.event j e hej)).2.1 h) m' hm'
    rcases h with ⟨e, h1, h2⟩ | h
    · rw [hr m' (by omega) e h1] at h2; cases h2
    · obtain ⟨e, s', h1, h2⟩ := runner_enabled (t := t) (inv_at hx m') (hc m' (by omega)) (hd m' (by omega)) (fun _ => he')
      rw [h e h1] at h2; cases h2
  by_cases h : (st n).errs = []
  · exact hcontra n (Nat.le_refl _) h
  · obtain ⟨m, hm, h'⟩ := herr n h
    exact hcontra m hm h'

end Sender
end Syslog5424
