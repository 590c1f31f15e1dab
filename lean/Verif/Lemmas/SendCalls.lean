import Verif.Spec.SendCalls
import Verif.Lemmas.Calls
import Verif.Lemmas.Fair
/-! # Lemmas: endless executions of calls made of steps -/
namespace Syslog5424

/-- Strong fairness is fairness. -/
theorem strong_fair {σ ε : Type} {step : σ → ε → Option σ} {p : ε → Bool} {ev : Nat → Option ε} {st : Nat → σ}
    (h : Spec.StronglyFair step p ev st) : Spec.Fair step p ev st := by
  intro n
  refine Classical.byContradiction fun hno => ?_
  have hen : ∀ k, ∃ m, k ≤ m ∧ ∃ e, p e = true ∧ step (st m) e ≠ none := by
    intro k
    refine ⟨max n k, Nat.le_max_right _ _, ?_⟩
    refine Classical.byContradiction fun hnone => hno ⟨max n k, Nat.le_max_left _ _, .inr fun e he => ?_⟩
    refine Classical.byContradiction fun hs => hnone ⟨e, he, hs⟩
  obtain ⟨m, hm, e, he, hp⟩ := h hen n
  exact hno ⟨m, hm, .inl ⟨e, he, hp⟩⟩

namespace Sender
open Spec

variable {t : Transport} {ev : Nat → Option FEvent} {st : Nat → FState}

/-- Where the calls take place before the moment `n`. -/
def lin (ev : Nat → Option FEvent) (st : Nat → FState) (n : Nat) : List (Option Nat × Event) :=
  past (fun k => (ev k).bind (takesPlace (st k))) n

/-- The execution with calls that take place at once. -/
def onceEv (ev : Nat → Option FEvent) (st : Nat → FState) (k : Nat) : Option Event :=
  ((ev k).bind (takesPlace (st k))).map (·.2)

theorem past_once (n : Nat) : past (onceEv ev st) n = (lin ev st n).map (·.2) := by
  unfold lin past onceEv
  rw [List.map_filterMap]

theorem lin_inv (hx : FExec t ev st) (n : Nat) : CInv t (past ev n) (st n) (lin ev st n) := by
  induction n with
  | zero => rw [hx.start]; exact cinv_init t
  | succ n ih =>
    have hl : lin ev st (n + 1) = lin ev st n ++ ((ev n).bind (takesPlace (st n))).toList := past_succ _ n
    rw [past_succ, hl]
    cases he : ev n with
    | none => rw [hx.nothing n he]; simpa using ih
    | some e =>
      obtain ⟨l', hl, h⟩ := cinv_step ih (hx.event n e he)
      subst hl
      simpa using h

theorem history_det {es : List Event} {s s' : State} (h : History t es s) (h' : History t es s') : s = s' := by
  unfold History at h h'
  rw [h] at h'
  simpa using h'

theorem once_exec (hx : FExec t ev st) : SenderExec t (onceEv ev st) (fun n => (st n).s) where
  start := by show (st 0).s = _; rw [hx.start]; rfl
  event := by
    intro n e he
    have h1 := (lin_inv hx n).ex.state
    have h2 := (lin_inv hx (n + 1)).ex.state
    rw [← past_once] at h1 h2
    rw [past_succ, he] at h2
    unfold History at h1 h2
    simp only [Option.toList_some] at h2
    cases hs : step t (st n).s e with
    | none =>
      exfalso
      have : run t init (past (onceEv ev st) n ++ [e]) = none := by
        have key : ∀ (a : List Event) (s s' : State), run t s a = some s' → step t s' e = none → run t s (a ++ [e]) = none := by
          intro a
          induction a with
          | nil => intro s s' h3 h4; simp only [run, Option.some.injEq] at h3; subst h3; simp [run, h4]
          | cons x r ih =>
            intro s s' h3 h4
            simp only [run, List.cons_append] at h3 ⊢
            cases hx' : step t s x with
            | none => rfl
            | some y => rw [hx'] at h3; exact ih y s' h3 h4
        exact key _ _ _ h1 hs
      rw [this] at h2
      simp at h2
    | some s' => exact congrArg some (history_det (history_snoc h1 hs) h2)
  nothing := by
    intro n he
    have h1 := (lin_inv hx n).ex.state
    have h2 := (lin_inv hx (n + 1)).ex.state
    rw [← past_once] at h1 h2
    rw [past_succ, he] at h2
    simp only [Option.toList_none, List.append_nil] at h2
    exact history_det h2 h1

/-- A step of another goroutine, or of the sender, does not move goroutine `g`. -/
theorem far_at {f f' : FState} {e : FEvent} {g : Nat} (hs : fstep t f e = some f') (hne : isStepOf g e = false) (hidle : f.at_ g ≠ .idle) :
    f'.at_ g = f.at_ g := by
  have hcr : f.s.crashed = false := by
    cases hc : f.s.crashed with
    | false => rfl
    | true => simp [fstep, hc] at hs
  unfold fstep at hs
  rw [if_neg (by rw [hcr]; decide)] at hs
  cases e with
  | call g' o =>
    have hgg : g ≠ g' := by
      rintro rfl
      simp only at hs
      split at hs
      · rename_i h; exact hidle h
      · rename_i h; exact hidle h
      · cases hs
    simp only at hs
    split at hs
    · simp only [Option.some.injEq] at hs; subst hs; exact go_far _ _ hgg
    · simp only [Option.some.injEq] at hs; subst hs; exact go_far _ _ hgg
    · cases hs
  | tau g' =>
    have hgg : g ≠ g' := by rintro rfl; simp [isStepOf] at hne
    simp only at hs
    split at hs
    · split at hs
      · simp only [Option.some.injEq] at hs; subst hs; exact go_far _ _ hgg
      · simp only [Option.some.injEq] at hs; subst hs; exact go_far _ _ hgg
      · simp only [Option.some.injEq] at hs; subst hs; rfl
      · cases hs
    · split at hs
      · cases hs
      · simp only [Option.some.injEq] at hs; subst hs; exact go_far _ _ hgg
    · simp only [Option.some.injEq] at hs; subst hs; exact go_far _ _ hgg
    · simp only [Option.some.injEq] at hs; subst hs; exact go_far _ _ hgg
    · split at hs
      · simp only [Option.some.injEq] at hs; subst hs; rfl
      · simp only [Option.some.injEq] at hs; subst hs; exact go_far _ _ hgg
    · cases hs
  | ret g' =>
    have hgg : g ≠ g' := by rintro rfl; simp [isStepOf] at hne
    simp only at hs
    split at hs
    · simp only [Option.some.injEq] at hs; subst hs; exact go_far _ _ hgg
    · split at hs
      · simp only [Option.some.injEq] at hs; subst hs; exact go_far _ _ hgg
      · cases hs
    · cases hs
  | other e =>
    simp only at hs
    split at hs
    · cases hs
    · cases hs
    · split at hs
      · cases hs
      · cases hst : step t f.s e with
        | none => rw [hst] at hs; cases hs
        | some s' =>
          rw [hst] at hs
          simp only [Option.map_some, Option.some.injEq] at hs
          subst hs
          rfl

/-- A goroutine inside a call makes its next step, if it can do so again and again; until then it is where it is. -/
theorem next_step (hx : FExec t ev st) {g : Nat} (hf : Scheduled t g ev st) (n : Nat) (x : G) (hn : (st n).at_ g = x) (hidle : x ≠ .idle)
    (hinf : ∀ k, n ≤ k → (∀ j, n ≤ j → (st j).at_ g = x) → ∃ m, k ≤ m ∧ ∃ e, isStepOf g e = true ∧ fstep t (st m) e ≠ none) :
    ∃ m e, n ≤ m ∧ (st m).at_ g = x ∧ ev m = some e ∧ isStepOf g e = true := by
  refine Classical.byContradiction fun hno => ?_
  have hat : ∀ m, n ≤ m → (st m).at_ g = x := by
    intro m hm
    refine stays hx (fun f => f.at_ g = x) n hn ?_ m hm
    intro k hk e he hat
    cases hp : isStepOf g e with
    | true => exact absurd ⟨k, e, hk, hat, he, hp⟩ hno
    | false => rw [far_at (hx.event k e he) hp (by rw [hat]; exact hidle)]; exact hat
  obtain ⟨m, hm, e, he, hp⟩ := hf (fun k => by
    obtain ⟨m, hm, h⟩ := hinf (max n k) (Nat.le_max_left _ _) hat
    exact ⟨m, Nat.le_trans (Nat.le_max_right _ _) hm, h⟩) n
  exact hno ⟨m, e, hm, hat m hm, he, hp⟩

/-- Inside a call that does not return at once: the next step is not the return. -/
theorem next_tau (hx : FExec t ev st) (hc : ∀ n, (st n).s.crashed = false) {g : Nat} (hf : Scheduled t g ev st) (n : Nat) (x : G) (hn : (st n).at_ g = x)
    (hidle : x ≠ .idle) (hret : (∀ m e, x ≠ .retSend m e) ∧ x ≠ .wait)
    (hinf : ∀ k, n ≤ k → (∀ j, n ≤ j → (st j).at_ g = x) → ∃ m, k ≤ m ∧ fstep t (st m) (.tau g) ≠ none) :
    ∃ m, n ≤ m ∧ (st m).at_ g = x ∧ ev m = some (.tau g) := by
  obtain ⟨m, e, hm, hat, he, hp⟩ := next_step hx hf n x hn hidle (fun k hk h => by
    obtain ⟨m, hm, h⟩ := hinf k hk h
    exact ⟨m, hm, .tau g, by simp [isStepOf], h⟩)
  refine ⟨m, hm, hat, ?_⟩
  cases e with
  | tau g' =>
    have : g' = g := by simpa [isStepOf] using hp
    rw [this] at he; exact he
  | ret g' =>
    exfalso
    have : g' = g := by simpa [isStepOf] using hp
    subst this
    have hs := hx.event m _ he
    unfold fstep at hs
    rw [if_neg (by rw [hc m]; decide)] at hs
    simp only [hat] at hs
    split at hs
    · rename_i h; exact hret.1 _ _ rfl
    · exact hret.2 rfl
    · cases hs
  | call g' o => simp [isStepOf] at hp
  | other e => simp [isStepOf] at hp

/-- The lock is released by the goroutine of the user that has it. -/
theorem holder_free (hx : FExec t ev st) (hc : ∀ n, (st n).s.crashed = false) (hf : ∀ g, Scheduled t g ev st) (n : Nat) (g : Nat)
    (hh : (st n).holder = some g) : ∃ m, n ≤ m ∧ (st m).holder = none ∧ (st m).s.locked = false := by
  have unlock : ∀ n m, (st n).at_ g = .unlock m → ∃ k, n ≤ k ∧ (st k).holder = none ∧ (st k).s.locked = false := by
    intro n m hn
    obtain ⟨k, hk, hat, he⟩ := next_tau hx hc (hf g) n _ hn (by simp) ⟨by simp, by simp⟩ (fun k hk h => ⟨k, Nat.le_refl _, by
      simp [fstep, hc k, h k hk]⟩)
    have hs := hx.event k _ he
    have hin : (st k).holder = some g := ((lin_inv hx k).hold (hc k) g).2 (by rw [hat]; rfl)
    have hlk := (lin_inv hx k).excl (by rw [hin]; rfl)
    simp only [fstep, hc k, hat, Bool.false_eq_true, if_false, Option.some.injEq] at hs
    refine ⟨k + 1, by omega, ?_, ?_⟩
    · rw [← hs]; rfl
    · rw [← hs]; exact hlk
  have hin := ((lin_inv hx n).hold (hc n) g).1 hh
  cases hat : (st n).at_ g with
  | append m b =>
    obtain ⟨k, hk, hatk, he⟩ := next_tau hx hc (hf g) n _ hat (by simp) ⟨by simp, by simp⟩ (fun k hk h => ⟨k, Nat.le_refl _, by
      simp [fstep, hc k, h k hk]⟩)
    have hs := hx.event k _ he
    simp only [fstep, hc k, hatk, Bool.false_eq_true, if_false, Option.some.injEq] at hs
    obtain ⟨k', hk', h⟩ := unlock (k + 1) m (by rw [← hs]; exact go_at _ _ _)
    exact ⟨k', by omega, h⟩
  | unlock m => exact unlock n m hat
  | idle => rw [hat] at hin; simp [inside] at hin
  | marshal _ => rw [hat] at hin; simp [inside] at hin
  | lock _ _ => rw [hat] at hin; simp [inside] at hin
  | retSend _ _ => rw [hat] at hin; simp [inside] at hin
  | close => rw [hat] at hin; simp [inside] at hin
  | wait => rw [hat] at hin; simp [inside] at hin

/-- The goroutine of the sender keeps running, whatever the goroutines of the user do with the lock. -/
theorem once_running (hx : FExec t ev st) (hc : ∀ n, (st n).s.crashed = false) (hrun : RunnerScheduled t ev st)
    (hf : ∀ g, Scheduled t g ev st) : Running t (onceEv ev st) (fun n => (st n).s) := by
  intro n
  refine Classical.byContradiction fun hno => ?_
  obtain ⟨m, hm, e, he, hp⟩ := hrun (fun k => by
    have : ∃ m, max n k ≤ m ∧ (st m).holder = none := by
      cases hh : (st (max n k)).holder with
      | none => exact ⟨_, Nat.le_refl _, hh⟩
      | some g =>
        obtain ⟨m, hm, h, _⟩ := holder_free hx hc hf _ g hh
        exact ⟨m, hm, h⟩
    obtain ⟨m, hm, hfree⟩ := this
    have hen : ∃ e, isRunner e = true ∧ step t (st m).s e ≠ none := by
      refine Classical.byContradiction fun hnone => hno ⟨m, by omega, .inr fun e he => ?_⟩
      refine Classical.byContradiction fun hs => hnone ⟨e, he, hs⟩
    obtain ⟨e, he, hs⟩ := hen
    refine ⟨m, by omega, .other e, he, ?_⟩
    cases e <;> simp [isRunner] at he <;> simp [fstep, hc m, hfree, hs]) n
  cases e with
  | other e => exact hno ⟨m, hm, .inl ⟨e, by simp [onceEv, he, takesPlace], hp⟩⟩
  | call _ _ => simp [isRunnerStep] at hp
  | tau _ => simp [isRunnerStep] at hp
  | ret _ => simp [isRunnerStep] at hp

end Sender
end Syslog5424
