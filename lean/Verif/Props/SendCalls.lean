import Verif.Lemmas.SendCalls
import Verif.Props.Goroutines
import Verif.Props.LoggedEventually
import Verif.Lemmas.Race
/-! # C104: every call of `Send` returns, and what it sends is received -/
namespace Syslog5424
open Spec Sender

namespace Sender

variable {t : Transport} {ev : Nat → Option FEvent} {st : Nat → FState}

/-- Inside `Send`. -/
def SendPlace : G → Prop
  | .marshal _ => True
  | .lock _ _ => True
  | .append _ _ => True
  | .unlock _ => True
  | .retSend _ _ => True
  | _ => False

theorem mem_called {g : Nat} {o : CallOp} {n : Nat} (h : o ∈ called g (past ev n)) : ∃ k, k < n ∧ ev k = some (.call g o) := by
  have key : ∀ l : List FEvent, o ∈ called g l → FEvent.call g o ∈ l := by
    intro l
    induction l with
    | nil => intro h; cases h
    | cons e r ih =>
      cases e with
      | call g' o' =>
        simp only [called]
        split
        · rename_i hg
          intro h
          rcases List.mem_cons.mp h with rfl | h
          · rw [hg]; simp
          · exact List.mem_cons_of_mem _ (ih h)
        · intro h; exact List.mem_cons_of_mem _ (ih h)
      | tau _ => intro h; exact List.mem_cons_of_mem _ (ih h)
      | ret _ => intro h; exact List.mem_cons_of_mem _ (ih h)
      | other _ => intro h; exact List.mem_cons_of_mem _ (ih h)
  have := key _ h
  simp only [past, List.mem_filterMap, List.mem_range] at this
  exact this

theorem fhistory_past (hx : FExec t ev st) (n : Nat) : FHistory t (past ev n) (st n) := by
  induction n with
  | zero => rw [hx.start]; rfl
  | succ n ih =>
    unfold FHistory at ih ⊢
    rw [past_succ, frun_append, ih]
    cases he : ev n with
    | none => rw [hx.nothing n he]; rfl
    | some e => simp [frun, hx.event n e he]

/-- The lock is free again and again. -/
theorem lock_free (hx : FExec t ev st) (hc : ∀ n, (st n).s.crashed = false) (hrun : RunnerScheduled t ev st)
    (hf : ∀ g, Scheduled t g ev st) (herr : ErrorsRead fun n => (st n).s) (n : Nat) :
    ∃ m, n ≤ m ∧ (st m).holder = none ∧ (st m).s.locked = false := by
  obtain ⟨k, hk, hs⟩ := C82_send_returns t _ _ (once_exec hx) (once_running hx hc hrun hf) herr hc (exMsg b!"x")
    b!"<14>1 1970-01-01T00:00:00Z h a 1 - - x" (by decide +kernel) n
  have hl : (st k).s.locked = false := by
    cases h : (st k).s.locked with
    | false => rfl
    | true =>
      have hm : (exMsg b!"x").marshal = .ret (.ok b!"<14>1 1970-01-01T00:00:00Z h a 1 - - x") := by decide +kernel
      simp [step, hc k, hm, h] at hs
  cases hh : (st k).holder with
  | none => exact ⟨k, hk, hh, hl⟩
  | some g =>
    obtain ⟨m, hm, h⟩ := holder_free hx hc hf k g hh
    exact ⟨m, by omega, h⟩

/-- A goroutine inside `Send` returns. -/
theorem send_place_returns (hx : FExec t ev st) (hc : ∀ n, (st n).s.crashed = false) (hrun : RunnerScheduled t ev st)
    (hf : ∀ g, Scheduled t g ev st) (herr : ErrorsRead fun n => (st n).s)
    (hhang : ∀ n g m, ev n = some (.call g (.send m)) → m.marshal ≠ .hang) (g n : Nat) (hp : SendPlace ((st n).at_ g)) :
    ∃ k, n ≤ k ∧ ev k = some (.ret g) := by
  have r0 : ∀ n m e, (st n).at_ g = .retSend m e → ∃ k, n ≤ k ∧ ev k = some (.ret g) := by
    intro n m e hn
    obtain ⟨k, x, hk, hat, he, hs⟩ := next_step hx (hf g) n _ hn (by simp) (fun k hk h => ⟨k, Nat.le_refl _, .ret g, by simp [isStepOf], by
      simp [fstep, hc k, h k hk]⟩)
    refine ⟨k, hk, ?_⟩
    cases x with
    | ret g' =>
      have : g' = g := by simpa [isStepOf] using hs
      rw [this] at he; exact he
    | tau g' =>
      exfalso
      have : g' = g := by simpa [isStepOf] using hs
      subst this
      have hst := hx.event k _ he
      simp [fstep, hc k, hat] at hst
    | call _ _ => simp [isStepOf] at hs
    | other _ => simp [isStepOf] at hs
  have r1 : ∀ n m, (st n).at_ g = .unlock m → ∃ k, n ≤ k ∧ ev k = some (.ret g) := by
    intro n m hn
    obtain ⟨k, hk, hat, he⟩ := next_tau hx hc (hf g) n _ hn (by simp) ⟨by simp, by simp⟩ (fun k hk h => ⟨k, Nat.le_refl _, by
      simp [fstep, hc k, h k hk]⟩)
    have hs := hx.event k _ he
    simp only [fstep, hc k, hat, Bool.false_eq_true, if_false, Option.some.injEq] at hs
    obtain ⟨k', hk', h⟩ := r0 (k + 1) m none (by rw [← hs]; exact go_at _ _ _)
    exact ⟨k', by omega, h⟩
  have r2 : ∀ n m b, (st n).at_ g = .append m b → ∃ k, n ≤ k ∧ ev k = some (.ret g) := by
    intro n m b hn
    obtain ⟨k, hk, hat, he⟩ := next_tau hx hc (hf g) n _ hn (by simp) ⟨by simp, by simp⟩ (fun k hk h => ⟨k, Nat.le_refl _, by
      simp [fstep, hc k, h k hk]⟩)
    have hs := hx.event k _ he
    simp only [fstep, hc k, hat, Bool.false_eq_true, if_false, Option.some.injEq] at hs
    obtain ⟨k', hk', h⟩ := r1 (k + 1) m (by rw [← hs]; exact go_at _ _ _)
    exact ⟨k', by omega, h⟩
  have r3 : ∀ n m b, (st n).at_ g = .lock m b → ∃ k, n ≤ k ∧ ev k = some (.ret g) := by
    intro n m b hn
    obtain ⟨k, hk, hat, he⟩ := next_tau hx hc (hf g) n _ hn (by simp) ⟨by simp, by simp⟩ (fun k hk h => by
      obtain ⟨j, hj, h1, h2⟩ := lock_free hx hc hrun hf herr k
      exact ⟨j, hj, by simp [fstep, hc j, h j (by omega), h1, h2]⟩)
    have hs := hx.event k _ he
    simp only [fstep, hc k, hat, Bool.false_eq_true, if_false] at hs
    split at hs
    · cases hs
    · simp only [Option.some.injEq] at hs
      obtain ⟨k', hk', h⟩ := r2 (k + 1) m b (by rw [← hs]; exact go_at _ _ _)
      exact ⟨k', by omega, h⟩
  cases hat : (st n).at_ g with
  | marshal m =>
    have hm : m.marshal ≠ .hang := by
      have := (lin_inv hx n).place (hc n) g
      rw [hat] at this
      obtain ⟨c', h1, _, _⟩ := this
      obtain ⟨k, _, hk⟩ := mem_called (show CallOp.send m ∈ called g (past ev n) by rw [h1]; simp)
      exact hhang k g m hk
    obtain ⟨k, hk, hatk, he⟩ := next_tau hx hc (hf g) n _ hat (by simp) ⟨by simp, by simp⟩ (fun k hk h => ⟨k, Nat.le_refl _, by
      simp only [fstep, hc k, h k hk, Bool.false_eq_true, if_false]
      cases hmm : m.marshal with
      | ret x => cases x <;> simp
      | panic => simp
      | hang => exact absurd hmm hm⟩)
    have hs := hx.event k _ he
    simp only [fstep, hc k, hatk, Bool.false_eq_true, if_false] at hs
    have hck := hc (k + 1)
    split at hs
    · simp only [Option.some.injEq] at hs
      obtain ⟨k', hk', h⟩ := r3 (k + 1) m _ (by rw [← hs]; exact go_at _ _ _)
      exact ⟨k', by omega, h⟩
    · simp only [Option.some.injEq] at hs
      obtain ⟨k', hk', h⟩ := r0 (k + 1) m _ (by rw [← hs]; exact go_at _ _ _)
      exact ⟨k', by omega, h⟩
    · simp only [Option.some.injEq] at hs
      rw [← hs] at hck
      simp at hck
    · cases hs
  | lock m b => exact r3 n m b hat
  | append m b => exact r2 n m b hat
  | unlock m => exact r1 n m hat
  | retSend m e => exact r0 n m e hat
  | idle => rw [hat] at hp; exact absurd hp id
  | close => rw [hat] at hp; exact absurd hp id
  | wait => rw [hat] at hp; exact absurd hp id

/-- The first return behind a moment. -/
theorem first_return {ev : Nat → Option FEvent} {g n k : Nat} (hk : n < k) (h : ev k = some (.ret g)) : ∃ k, CallReturns ev g n k := by
  induction hd : k using Nat.strongRecOn generalizing k with
  | _ d ih =>
    subst hd
    by_cases hex : ∃ j, n < j ∧ j < k ∧ ev j = some (.ret g)
    · obtain ⟨j, h1, h2, h3⟩ := hex
      exact ih j h2 h1 h3 rfl
    · exact ⟨k, hk, h, fun j h1 h2 h3 => hex ⟨j, h1, h2, h3⟩⟩

theorem call_place (hx : FExec t ev st) (hc : ∀ n, (st n).s.crashed = false) {g n : Nat} {o : CallOp} (h : ev n = some (.call g o)) :
    (st (n + 1)).at_ g = (match o with | .send m => .marshal m | .endCall => .close) := by
  have hs := hx.event n _ h
  simp only [fstep, hc n, Bool.false_eq_true, if_false] at hs
  split at hs
  · simp only [Option.some.injEq] at hs; rw [← hs]; exact go_at _ _ _
  · simp only [Option.some.injEq] at hs; rw [← hs]; exact go_at _ _ _
  · cases hs

/-- Finitely many goroutines have called. -/
theorem few_called (l : List FEvent) : ∃ b, ∀ g, b ≤ g → called g l = [] := by
  induction l with
  | nil => exact ⟨0, fun _ _ => rfl⟩
  | cons e r ih =>
    obtain ⟨b, hb⟩ := ih
    cases e with
    | call g' o =>
      refine ⟨max b (g' + 1), fun g hg => ?_⟩
      have : ¬ g' = g := by omega
      simp only [called, if_neg this]
      exact hb g (by omega)
    | tau _ => exact ⟨b, hb⟩
    | ret _ => exact ⟨b, hb⟩
    | other _ => exact ⟨b, hb⟩

theorem called_prefix (ev : Nat → Option FEvent) (g : Nat) {n m : Nat} (h : n ≤ m) : called g (past ev n) <+: called g (past ev m) := by
  obtain ⟨r, hr⟩ := past_prefix ev h
  rw [← hr, called_append]
  exact List.prefix_append _ _

theorem returns_mono (ev : Nat → Option FEvent) (g : Nat) {n m : Nat} (h : n ≤ m) : returns g (past ev n) ≤ returns g (past ev m) := by
  obtain ⟨r, hr⟩ := past_prefix ev h
  rw [← hr, returns_append]
  omega

/-- After the return of a call all calls of the goroutine have returned. -/
theorem ret_idle (hx : FExec t ev st) {g k : Nat} (h : ev k = some (.ret g)) : (st (k + 1)).at_ g = .idle := by
  have hs := hx.event k _ h
  unfold fstep at hs
  split at hs
  · cases hs
  · simp only at hs
    split at hs
    · simp only [Option.some.injEq] at hs; rw [← hs]; exact go_at _ _ _
    · split at hs
      · simp only [Option.some.injEq] at hs; rw [← hs]; exact go_at _ _ _
      · cases hs
    · cases hs

theorem idle_returns (hx : FExec t ev st) (hc : ∀ n, (st n).s.crashed = false) {g n : Nat} (h : (st n).at_ g = .idle) :
    returns g (past ev n) = (called g (past ev n)).length := by
  have := (lin_inv hx n).place (hc n) g
  rw [h] at this
  exact this.2

/-- The calls that a goroutine has begun have returned at some moment. -/
theorem settled (hx : FExec t ev st) (hc : ∀ n, (st n).s.crashed = false) (hrun : RunnerScheduled t ev st)
    (hf : ∀ g, Scheduled t g ev st) (herr : ErrorsRead fun n => (st n).s)
    (hhang : ∀ n g m, ev n = some (.call g (.send m)) → m.marshal ≠ .hang) (hend : ∀ n g, ev n ≠ some (.call g .endCall)) (g n : Nat) :
    ∃ m, n ≤ m ∧ (called g (past ev n)).length ≤ returns g (past ev m) := by
  have go : SendPlace ((st n).at_ g) → ∃ m, n ≤ m ∧ (called g (past ev n)).length ≤ returns g (past ev m) := by
    intro hp
    obtain ⟨k, hk, h⟩ := send_place_returns hx hc hrun hf herr hhang g n hp
    refine ⟨k + 1, by omega, ?_⟩
    rw [idle_returns hx hc (ret_idle hx h)]
    exact (called_prefix ev g (show n ≤ k + 1 by omega)).length_le
  have no : CallOp.endCall ∉ called g (past ev n) := by
    intro h
    obtain ⟨k, _, hk⟩ := mem_called h
    exact hend k g hk
  have hpl := (lin_inv hx n).place (hc n) g
  cases hat : (st n).at_ g with
  | idle => exact ⟨n, Nat.le_refl _, by rw [idle_returns hx hc hat]; exact Nat.le_refl _⟩
  | close =>
    rw [hat] at hpl
    obtain ⟨c', h1, _, _⟩ := hpl
    exact absurd (by rw [h1]; simp) no
  | wait =>
    rw [hat] at hpl
    obtain ⟨c', h1, _, _⟩ := hpl
    exact absurd (by rw [h1]; simp) no
  | marshal m => exact go (by rw [hat]; trivial)
  | lock m b => exact go (by rw [hat]; trivial)
  | append m b => exact go (by rw [hat]; trivial)
  | unlock m => exact go (by rw [hat]; trivial)
  | retSend m e => exact go (by rw [hat]; trivial)

/-- Without a call of `Send`, no goroutine comes into `Send`. -/
theorem stays_out {f f' : FState} {e : FEvent} {g : Nat} (hs : fstep t f e = some f') (hne : ∀ m, e ≠ .call g (.send m))
    (hp : ¬ SendPlace (f.at_ g)) : ¬ SendPlace (f'.at_ g) := by
  by_cases hstep : isStepOf g e = true
  · cases e with
    | tau g' =>
      have : g' = g := by simpa [isStepOf] using hstep
      subst this
      unfold fstep at hs
      split at hs
      · cases hs
      · simp only at hs
        split at hs
        · rename_i h; rw [h] at hp; exact absurd trivial hp
        · rename_i h; rw [h] at hp; exact absurd trivial hp
        · rename_i h; rw [h] at hp; exact absurd trivial hp
        · rename_i h; rw [h] at hp; exact absurd trivial hp
        · split at hs
          · simp only [Option.some.injEq] at hs; rw [← hs]; exact hp
          · simp only [Option.some.injEq] at hs; rw [← hs, go_at]; exact id
        · cases hs
    | ret g' =>
      have : g' = g := by simpa [isStepOf] using hstep
      subst this
      unfold fstep at hs
      split at hs
      · cases hs
      · simp only at hs
        split at hs
        · simp only [Option.some.injEq] at hs; rw [← hs, go_at]; exact id
        · split at hs
          · simp only [Option.some.injEq] at hs; rw [← hs, go_at]; exact id
          · cases hs
        · cases hs
    | call _ _ => simp [isStepOf] at hstep
    | other _ => simp [isStepOf] at hstep
  · have hstep : isStepOf g e = false := by simpa using hstep
    by_cases hidle : f.at_ g = .idle
    · cases e with
      | call g' o =>
        unfold fstep at hs
        split at hs
        · cases hs
        · simp only at hs
          by_cases hg : g = g'
          · subst hg
            split at hs
            · exact absurd rfl (hne _)
            · simp only [Option.some.injEq] at hs; rw [← hs, go_at]; exact id
            · cases hs
          · split at hs
            · simp only [Option.some.injEq] at hs; rw [← hs, go_far _ _ hg]; exact hp
            · simp only [Option.some.injEq] at hs; rw [← hs, go_far _ _ hg]; exact hp
            · cases hs
      | tau g' =>
        have hg : g ≠ g' := by rintro rfl; simp [isStepOf] at hstep
        have : f'.at_ g = f.at_ g := by
          unfold fstep at hs
          split at hs
          · cases hs
          · simp only at hs
            repeat' split at hs
            all_goals first
              | cases hs; done
              | (simp only [Option.some.injEq] at hs; subst hs; first | rfl | exact go_far _ _ hg)
        rw [this]; exact hp
      | ret g' =>
        have hg : g ≠ g' := by rintro rfl; simp [isStepOf] at hstep
        have : f'.at_ g = f.at_ g := by
          unfold fstep at hs
          split at hs
          · cases hs
          · simp only at hs
            repeat' split at hs
            all_goals first
              | cases hs; done
              | (simp only [Option.some.injEq] at hs; subst hs; first | rfl | exact go_far _ _ hg)
        rw [this]; exact hp
      | other e =>
        have : f'.at_ g = f.at_ g := by
          unfold fstep at hs
          split at hs
          · cases hs
          · simp only at hs
            split at hs
            · cases hs
            · cases hs
            · split at hs
              · cases hs
              · cases hst : step t f.s e with
                | none => rw [hst] at hs; cases hs
                | some s' =>
                  rw [hst] at hs
                  simp only [Option.map_some, Option.some.injEq] at hs
                  subst hs
                  rfl
        rw [this]; exact hp
    · rw [far_at hs hstep hidle]; exact hp

/-- The sends stop when the calls of `Send` stop. -/
theorem once_stop (hx : FExec t ev st) (hc : ∀ n, (st n).s.crashed = false) (hrun : RunnerScheduled t ev st)
    (hf : ∀ g, Scheduled t g ev st) (herr : ErrorsRead fun n => (st n).s)
    (hhang : ∀ n g m, ev n = some (.call g (.send m)) → m.marshal ≠ .hang) (hstop : SendCallsStop ev) : SendsStop (onceEv ev st) := by
  obtain ⟨N, hN⟩ := hstop
  obtain ⟨b, hb⟩ := few_called (past ev N)
  have out : ∀ g n, N ≤ n → ¬ SendPlace ((st n).at_ g) → ∀ m, n ≤ m → ¬ SendPlace ((st m).at_ g) := by
    intro g n hn h m hm
    refine stays hx (fun f => ¬ SendPlace (f.at_ g)) n h ?_ m hm
    intro k hk e he hp
    exact stays_out (hx.event k e he) (fun m' h' => hN k (by omega) g m' (by rw [he, h'])) hp
  obtain ⟨M, hM, h⟩ := common_moment (fun g m => N ≤ m ∧ ¬ SendPlace ((st m).at_ g)) (fun g n m hnm h => ⟨by omega, out g n h.1 h.2 m hnm⟩) b (by
    intro g _
    by_cases hp : SendPlace ((st N).at_ g)
    · obtain ⟨k, hk, hr⟩ := send_place_returns hx hc hrun hf herr hhang g N hp
      exact ⟨k + 1, by omega, by rw [ret_idle hx hr]; exact id⟩
    · exact ⟨N, Nat.le_refl _, hp⟩) N
  have all : ∀ g, ¬ SendPlace ((st M).at_ g) := by
    intro g
    by_cases hg : g < b
    · exact (h g hg).2
    · refine out g N (Nat.le_refl _) ?_ M hM
      have hpl := (lin_inv hx N).place (hc N) g
      have hnil := hb g (by omega)
      have no : ∀ (o : CallOp) (c' : List CallOp), called g (past ev N) ≠ c' ++ [o] := by
        intro o c' h
        rw [hnil] at h
        simp at h
      cases hat : (st N).at_ g with
      | idle => exact id
      | close => exact id
      | wait => exact id
      | marshal m => rw [hat] at hpl; obtain ⟨c', h1, _⟩ := hpl; exact absurd h1 (no _ _)
      | lock m b => rw [hat] at hpl; obtain ⟨⟨c', h1, _⟩, _⟩ := hpl; exact absurd h1 (no _ _)
      | append m b => rw [hat] at hpl; obtain ⟨⟨c', h1, _⟩, _⟩ := hpl; exact absurd h1 (no _ _)
      | unlock m => rw [hat] at hpl; obtain ⟨⟨c', h1, _⟩, _⟩ := hpl; exact absurd h1 (no _ _)
      | retSend m e =>
        rw [hat] at hpl
        cases e with
        | none => obtain ⟨⟨c', h1, _⟩, _⟩ := hpl; exact absurd h1 (no _ _)
        | some e => obtain ⟨⟨c', h1, _⟩, _⟩ := hpl; exact absurd h1 (no _ _)
  refine ⟨M, fun n hn m he => ?_⟩
  unfold onceEv at he
  cases hev : ev n with
  | none => rw [hev] at he; cases he
  | some e =>
    rw [hev] at he
    cases e with
    | call _ _ => cases he
    | ret _ => cases he
    | tau g =>
      have hp := out g M (by omega) (all g) n hn
      simp only [Option.bind_some, takesPlace] at he
      split at he
      · rename_i h; rw [h] at hp; exact absurd trivial hp
      · rename_i h; rw [h] at hp; exact absurd trivial hp
      · simp at he
      · cases he
    | other e =>
      simp only [Option.bind_some, takesPlace, Option.map_some, Option.some.injEq] at he
      subst he
      have hs := hx.event n _ hev
      simp [fstep, hc n] at hs

/-- An event that is not a call takes place at once. -/
theorem once_environment {n : Nat} {e : Event} (h : environment ev n = some e) : onceEv ev st n = some e := by
  unfold environment at h
  split at h
  · rename_i h'
    simp only [Option.some.injEq] at h
    subst h
    simp [onceEv, h', takesPlace]
  · cases h

theorem once_cases {n : Nat} {e : Event} (h : onceEv ev st n = some e) : environment ev n = some e ∨ (∃ m, e = .send m) ∨
    (e = .endCall ∧ ∃ g, ev n = some (.tau g) ∧ (st n).at_ g = .close) := by
  unfold onceEv at h
  cases hev : ev n with
  | none => rw [hev] at h; cases h
  | some x =>
    rw [hev] at h
    cases x with
    | call _ _ => cases h
    | ret _ => cases h
    | tau g =>
      simp only [Option.bind_some, takesPlace] at h
      split at h
      · split at h
        · cases h
        · simp only [Option.map_some, Option.some.injEq] at h; exact .inr (.inl ⟨_, h.symm⟩)
      · simp only [Option.map_some, Option.some.injEq] at h; exact .inr (.inl ⟨_, h.symm⟩)
      · rename_i hat
        simp only [Option.map_some, Option.some.injEq] at h; exact .inr (.inr ⟨h.symm, g, rfl, hat⟩)
      · cases h
    | other e' =>
      simp only [Option.bind_some, takesPlace, Option.map_some, Option.some.injEq] at h
      subst h
      exact .inl (by simp [environment, hev])

theorem once_recovers (h : Recovers (environment ev)) : Recovers (onceEv ev st) := by
  obtain ⟨N, hN⟩ := h
  refine ⟨N, fun n hn e he => ?_⟩
  rcases once_cases he with h | ⟨m, rfl⟩ | ⟨rfl, _⟩
  · exact hN n hn e h
  · rfl
  · rfl

end Sender

/-- **C104.** Every call of `Send` returns, whatever the other goroutines do at the same time and even if no connection can be made: in every
endless execution in which the goroutines are scheduled and the errors are read. -/
theorem C104_send_returns (t : Transport) (ev : Nat → Option FEvent) (st : Nat → FState) (hx : FExec t ev st)
    (hrun : RunnerScheduled t ev st) (hgo : ∀ g, Scheduled t g ev st) (hread : ErrorsRead fun n => (st n).s)
    (hc : ∀ n, (st n).s.crashed = false) (hhang : ∀ n g m, ev n = some (.call g (.send m)) → m.marshal ≠ .hang)
    (n g : Nat) (m : Message) (hcall : ev n = some (.call g (.send m))) : ∃ k, CallReturns ev g n k := by
  obtain ⟨k, hk, h⟩ := send_place_returns hx hc hrun hgo hread hhang g (n + 1) (by rw [call_place hx hc hcall]; trivial)
  exact first_return (by omega) h

/-- **C104.** Every call of `End` returns, when `Send` is not called any more and the network works at last. -/
theorem C104_end_returns (t : Transport) (ev : Nat → Option FEvent) (st : Nat → FState) (hx : FExec t ev st)
    (hrun : RunnerScheduled t ev st) (hgo : ∀ g, Scheduled t g ev st) (hread : ErrorsRead fun n => (st n).s)
    (hc : ∀ n, (st n).s.crashed = false) (hhang : ∀ n g m, ev n = some (.call g (.send m)) → m.marshal ≠ .hang)
    (hrec : Recovers (environment ev)) (hstop : SendCallsStop ev) (hnotice : NoticesEnd (environment ev) fun n => (st n).s)
    (n g : Nat) (hcall : ev n = some (.call g .endCall)) : ∃ k, CallReturns ev g n k := by
  have hat : (st (n + 1)).at_ g = .close := call_place hx hc hcall
  obtain ⟨k, hk, hatk, he⟩ := next_tau hx hc (hgo g) (n + 1) _ hat (by simp) ⟨by simp, by simp⟩ (fun k hk h => ⟨k, Nat.le_refl _, by
    simp only [fstep, hc k, h k hk, Bool.false_eq_true, if_false]
    split <;> simp⟩)
  have hs := hx.event k _ he
  have hck := hc (k + 1)
  simp only [fstep, hc k, hatk, Bool.false_eq_true, if_false] at hs
  split at hs
  · simp only [Option.some.injEq] at hs
    rw [← hs] at hck
    simp at hck
  · simp only [Option.some.injEq] at hs
    have hw : (st (k + 1)).at_ g = .wait := by rw [← hs]; exact go_at _ _ _
    have hasked : (st (k + 1)).s.endAsked = true := by rw [← hs]; rfl
    obtain ⟨m0, hm0⟩ := C82_end_returns t _ _ (once_exec hx) (once_running hx hc hrun hgo) hread (once_recovers hrec)
      (once_stop hx hc hrun hgo hread hhang hstop)
      (fun h => by obtain ⟨m, hm⟩ := hnotice h; exact ⟨m, once_environment hm⟩) ⟨k + 1, hasked⟩ hc
    have hlater : ∀ m, m0 ≤ m → (st m).s.endCompleted = true := by
      refine stays (once_exec hx) (fun s => s.endCompleted = true) m0 hm0 ?_
      intro m _ e he h
      exact (end_mono (once_exec hx |>.event m e he)).2 h
    obtain ⟨j, x, hj, hatj, hej, hsj⟩ := next_step hx (hgo g) (k + 1) _ hw (by simp) (fun i hi h => ⟨max i m0, Nat.le_max_left _ _, .ret g, by simp [isStepOf], by
      simp [fstep, hc (max i m0), h (max i m0) (by omega), hlater (max i m0) (Nat.le_max_right _ _)]⟩)
    cases x with
    | ret g' =>
      have : g' = g := by simpa [isStepOf] using hsj
      subst this
      exact first_return (by omega) hej
    | tau g' =>
      exfalso
      have : g' = g := by simpa [isStepOf] using hsj
      subst this
      have hst := hx.event j _ hej
      simp [fstep, hc j, hatj] at hst
    | call _ _ => simp [isStepOf] at hsj
    | other _ => simp [isStepOf] at hsj

namespace Sender

variable {t : Transport} {ev : Nat → Option FEvent} {st : Nat → FState}

theorem once_no_end (hx : FExec t ev st) (hc : ∀ n, (st n).s.crashed = false) (hend : ∀ n g, ev n ≠ some (.call g .endCall)) (n : Nat) :
    (st n).s.endAsked = false := by
  cases h : (st n).s.endAsked with
  | false => rfl
  | true =>
    exfalso
    have hh := (lin_inv hx n).ex.state
    rw [← past_once] at hh
    have := endAsked_mem hh h
    simp only [past, List.mem_filterMap, List.mem_range] at this
    obtain ⟨k, _, hk⟩ := this
    rcases once_cases hk with h1 | ⟨m, h1⟩ | ⟨_, g, h1, h2⟩
    · unfold environment at h1
      split at h1
      · rename_i h2
        simp only [Option.some.injEq] at h1
        subst h1
        have hs := hx.event k _ h2
        simp [fstep, hc k] at hs
      · cases h1
    · cases h1
    · have hpl := (lin_inv hx k).place (hc k) g
      rw [h2] at hpl
      obtain ⟨c', h3, _, _⟩ := hpl
      obtain ⟨j, _, hj⟩ := mem_called (show CallOp.endCall ∈ called g (past ev k) by rw [h3]; simp)
      exact hend j g hj

/-- At some moment everything given to `Send` before has been taken by the sender. -/
theorem all_taken (hx : FExec t ev st) (hc : ∀ n, (st n).s.crashed = false) (hrun : RunnerScheduled t ev st)
    (hf : ∀ g, Scheduled t g ev st) (herr : ErrorsRead fun n => (st n).s)
    (hok : ∀ n g m, ev n = some (.call g (.send m)) → ∃ b, m.marshal = .ret (.ok b)) (hend : ∀ n g, ev n ≠ some (.call g .endCall)) (n : Nat) :
    ∃ m, (∀ g, givenBy g (past ev n) <+: ofGoroutine g (sendsOf (lin ev st m)) ∧ ofGoroutine g (sendsOf (lin ev st m)) <+: givenBy g (past ev m)) ∧
      sent (past (onceEv ev st) m) = (sendsOf (lin ev st m)).map (·.2) := by
  have hgiven : ∀ n g, ∀ m ∈ givenBy g (past ev n), ∃ b, m.marshal = .ret (.ok b) := by
    intro n g m hm
    simp only [givenBy, messagesOf, List.mem_filterMap] at hm
    obtain ⟨o, ho, he⟩ := hm
    cases o with
    | endCall => cases he
    | send m' =>
      simp only [Option.some.injEq] at he
      subst he
      obtain ⟨k, _, hk⟩ := mem_called ho
      exact hok k g _ hk
  obtain ⟨b, hb⟩ := few_called (past ev n)
  obtain ⟨m, hm, h⟩ := common_moment (fun g m => (called g (past ev n)).length ≤ returns g (past ev m))
    (fun g i j hij h => Nat.le_trans h (returns_mono ev g hij)) b (fun g _ => by
      obtain ⟨m, _, h⟩ := settled hx hc hrun hf herr (fun n g m h' => by obtain ⟨b, hb⟩ := hok n g m h'; rw [hb]; simp) hend g n
      exact ⟨m, h⟩) n
  have h : ∀ g, (called g (past ev n)).length ≤ returns g (past ev m) := by
    intro g
    by_cases hg : g < b
    · exact h g hg
    · rw [hb g (by omega)]; simp
  have ex := (lin_inv hx m).ex
  have hh := fhistory_past hx m
  refine ⟨m, fun g => ?_, ?_⟩
  · obtain ⟨h1, h2⟩ := ex.accepted g
    have e2 : accepted (called g (past ev m)) = givenBy g (past ev m) := messagesOf_map _ (hgiven m g)
    refine ⟨?_, by rw [← e2]; exact h2⟩
    refine List.IsPrefix.trans ?_ h1
    have hpre : called g (past ev n) <+: (called g (past ev m)).take (returns g (past ev m)) :=
      List.prefix_take_iff.mpr ⟨called_prefix ev g hm, h g⟩
    have e1 : givenBy g (past ev n) = accepted (called g (past ev n)) := (messagesOf_map _ (hgiven n g)).symm
    rw [e1]
    exact hpre.filterMap _
  · rw [past_once]
    exact sent_sendsOf _ (by rw [ex.others]; exact no_other_send hh) (fun x hx' => by
      obtain ⟨g, hg⟩ := sent_given hh ex hx'
      exact hgiven m g x hg)

theorem once_clean (hclean : ∀ n nb x, ev n = some (.other (.write nb (some x))) → nb = 0) :
    ∀ n nb e, onceEv ev st n = some (.write nb (some e)) → nb = 0 := by
  intro n nb e h
  rcases once_cases h with h1 | ⟨m, h1⟩ | ⟨h1, _⟩
  · unfold environment at h1
    split at h1
    · rename_i h2
      simp only [Option.some.injEq] at h1
      subst h1
      exact hclean n nb e h2
    · cases h1
  · cases h1
  · cases h1

/-- Who sent a message gave it to `Send`. -/
theorem once_given (hx : FExec t ev st) {n : Nat} {m : Message} (h : m ∈ sent (past (onceEv ev st) n)) :
    ∃ k g, ev k = some (.call g (.send m)) := by
  rw [past_once] at h
  obtain ⟨g, hg⟩ := sent_given (fhistory_past hx n) (lin_inv hx n).ex h
  simp only [givenBy, messagesOf, List.mem_filterMap] at hg
  obtain ⟨o, ho, he⟩ := hg
  cases o with
  | endCall => cases he
  | send m' =>
    simp only [Option.some.injEq] at he
    subst he
    obtain ⟨k, _, hk⟩ := mem_called ho
    exact ⟨k, g, hk⟩

end Sender

/-- **C104.** Whatever several goroutines give to `Send` is received, with the RFC 5425 transport: in every endless execution in which
nobody calls `End`, the goroutines are scheduled, the errors are read, the network works at last, delivers what was written, and every write that
fails has accepted nothing. Missing: writes that fail in the middle of a frame, see `C100_midframe_violated`. -/
theorem C104_delivered_partial (ev : Nat → Option FEvent) (st : Nat → FState) (hx : FExec .rfc5425 ev st)
    (hrun : RunnerScheduled .rfc5425 ev st) (hgo : ∀ g, Scheduled .rfc5425 g ev st) (hread : ErrorsRead fun n => (st n).s)
    (hcs : ∀ n, (st n).s.crashed = false) (hrec : Recovers (environment ev)) (hend : ∀ n g, ev n ≠ some (.call g .endCall))
    (hclean : ∀ n nb x, ev n = some (.other (.write nb (some x))) → nb = 0)
    (hmsgs : ∀ n g m, ev n = some (.call g (.send m)) → Transmissible m)
    (lenQueue : Nat) (er : Nat → Option Recv.Event) (sr : Nat → Recv.State)
    (hxr : ReceiverExec .rfc5425 lenQueue er sr) (hcons : Consumed .rfc5425 lenQueue er sr) (herr : ErrorsDrained sr)
    (hc : ∀ n, (sr n).crashed = false) (f : Nat → Nat)
    (hopen : ∀ j, Opened (fun n => (st n).s) j → Served .rfc5425 lenQueue (f j) er sr ∧ ∃ n, f j < (sr n).conns.length)
    (hlink : Links (fun n => (st n).s) f er) (n : Nat) :
    ∃ m k a, GivenBefore ev n a ∧ Each IsReceived (a.map (·.2)) ((receivedOver f k (sr m).got).take a.length) := by
  obtain ⟨n', h1, h2⟩ := all_taken hx hcs hrun hgo hread (fun n g m h => by obtain ⟨b, _, hb, _⟩ := transmissible_frame (hmsgs n g m h).toIntact; exact ⟨b, hb⟩) hend n
  obtain ⟨m, k, main⟩ := C100_delivered_partial _ _ (once_exec hx) (once_running hx hcs hrun hgo) hread (once_recovers hrec)
    (once_no_end hx hcs hend) hcs (C100_clean _ _ _ (once_exec hx) (once_clean hclean)) (fun n m hm => by
      obtain ⟨k, g, h⟩ := once_given hx hm
      exact hmsgs k g m h) lenQueue er sr hxr hcons herr hc f hopen hlink n'
  rw [h2, List.length_map] at main
  exact ⟨m, k, _, ⟨n', h1⟩, main⟩

/-- **C104**, with the LF and NUL transports. -/
theorem C104_lines_partial (t : Transport) (z : UInt8) (ht : t = .lfEnded ∧ z = 10 ∨ t = .zeroEnded ∧ z = 0)
    (ev : Nat → Option FEvent) (st : Nat → FState) (hx : FExec t ev st)
    (hrun : RunnerScheduled t ev st) (hgo : ∀ g, Scheduled t g ev st) (hread : ErrorsRead fun n => (st n).s)
    (hcs : ∀ n, (st n).s.crashed = false) (hrec : Recovers (environment ev)) (hend : ∀ n g, ev n ≠ some (.call g .endCall))
    (hclean : ∀ n nb x, ev n = some (.other (.write nb (some x))) → nb = 0)
    (hmsgs : ∀ n g m, ev n = some (.call g (.send m)) → TransmissibleLine z m)
    (lenQueue : Nat) (er : Nat → Option Recv.Event) (sr : Nat → Recv.State)
    (hxr : ReceiverExec t lenQueue er sr) (hcons : Consumed t lenQueue er sr) (herr : ErrorsDrained sr)
    (hc : ∀ n, (sr n).crashed = false) (f : Nat → Nat)
    (hopen : ∀ j, Opened (fun n => (st n).s) j → Served t lenQueue (f j) er sr ∧ ∃ n, f j < (sr n).conns.length)
    (hlink : Links (fun n => (st n).s) f er) (n : Nat) :
    ∃ m k a, GivenBefore ev n a ∧ Each IsReceived (a.map (·.2)) ((receivedOver f k (sr m).got).take a.length) := by
  obtain ⟨n', h1, h2⟩ := all_taken hx hcs hrun hgo hread (fun n g m h => by obtain ⟨_, hb, _⟩ := line_of_message (show z = 10 ∨ z = 0 by rcases ht with ⟨_, h⟩ | ⟨_, h⟩ <;> simp [h]) (hmsgs n g m h); exact ⟨_, hb⟩) hend n
  obtain ⟨m, k, main⟩ := C100_lines_partial t z ht _ _ (once_exec hx) (once_running hx hcs hrun hgo) hread (once_recovers hrec)
    (once_no_end hx hcs hend) hcs (C100_clean _ _ _ (once_exec hx) (once_clean hclean)) (fun n m hm => by
      obtain ⟨k, g, h⟩ := once_given hx hm
      exact hmsgs k g m h) lenQueue er sr hxr hcons herr hc f hopen hlink n'
  rw [h2, List.length_map] at main
  exact ⟨m, k, _, ⟨n', h1⟩, main⟩

/-- A message given to `Send` was said by a line. -/
theorem line_of_call {host : Option Bytes} {pid out : Nat} {p : Int} {app : Bytes} {s0 s : Syslog} {x : Int} {c0 : Channel}
    (h0 : Syslog.new host pid out p app = some s0) (hfirst : s0.channel x = .ret (s, c0)) {prog : Nat → Nat → List LogCall}
    {ev : Nat → Option FEvent} (hrun : BeginLines s out prog ev) {n g : Nat} {m : Message} (h : ev n = some (.call g (.send m))) :
    ∃ cl ∈ prog g (n + 1), SaysMessage host pid p app cl m := by
  have hm : m ∈ givenBy g (past ev (n + 1)) := by
    rw [past_succ, h]
    unfold givenBy
    rw [called_append]
    simp [messagesOf, called]
  obtain ⟨ms, h1, h2⟩ := logAll_stable h0 hfirst (prog g (n + 1))
  rw [hrun.2 g (n + 1)] at h1
  simp only [Out.ret.injEq, Prod.mk.injEq, true_and] at h1
  have := congrArg (List.map Prod.snd) h1
  simp only [List.map_map, Function.comp_def, List.map_id'] at this
  rw [this] at hm
  obtain ⟨cl, g1, g2⟩ := each_mem h2 m hm
  exact ⟨cl, (List.mem_filter.mp g1).1, g2⟩

/-- From the messages of the goroutines to their log lines. -/
theorem lines_said {host : Option Bytes} {pid out : Nat} {p : Int} {app : Bytes} {s0 s : Syslog} {x : Int} {c0 : Channel}
    (h0 : Syslog.new host pid out p app = some s0) (hfirst : s0.channel x = .ret (s, c0)) {prog : Nat → Nat → List LogCall}
    {ev : Nat → Option FEvent} (hrun : BeginLines s out prog ev) {n : Nat} {a : List (Nat × Message)} {n' : Nat}
    (ha : ∀ g, givenBy g (past ev n) <+: ofGoroutine g a ∧ ofGoroutine g a <+: givenBy g (past ev n')) :
    ∃ b, LinesBefore p prog n b ∧ Each (SaysMessage host pid p app) (b.map (·.2)) (a.map (·.2)) := by
  obtain ⟨hgrow, hrun⟩ := hrun
  have each : ∀ g n, Each (SaysMessage host pid p app) (passing p (prog g n)) (givenBy g (past ev n)) := by
    intro g n
    obtain ⟨ms, h1, h2⟩ := logAll_stable h0 hfirst (prog g n)
    rw [hrun g n] at h1
    simp only [Out.ret.injEq, Prod.mk.injEq, true_and] at h1
    have := congrArg (List.map Prod.snd) h1
    simp only [List.map_map, Function.comp_def, List.map_id'] at this
    rw [this]; exact h2
  obtain ⟨b, k1, k2, k3⟩ := relabel (R := SaysMessage host pid p app) a (fun g => passing p (prog g n')) (by
    intro g
    have := each g n'
    obtain ⟨tl, htl⟩ := (ha g).2
    rw [← htl] at this
    exact ⟨_, each_prefix this⟩)
  refine ⟨b, ⟨max n n', fun g => ⟨?_, ?_⟩⟩, k2⟩
  · have hp1 : passing p (prog g n) <+: passing p (prog g (max n n')) := (hgrow g n _ (Nat.le_max_left _ _)).filter _
    have hp2 : ofGoroutine g b <+: passing p (prog g (max n n')) := (k3 g).trans ((hgrow g n' _ (Nat.le_max_right _ _)).filter _)
    refine List.prefix_of_prefix_length_le hp1 hp2 ?_
    rw [ofGoroutine_length k1, ← each_length (each g n)]
    exact (ha g).1.length_le
  · exact (k3 g).trans ((hgrow g n' _ (Nat.le_max_right _ _)).filter _)

/-- **C104.** Whatever several goroutines log is received, with the RFC 5425 transport: what `Receive` has returned at some moment says the
log lines (those that pass the threshold) that the goroutines have begun before the moment `n`, interleaved, the lines of every goroutine in its
order. Missing: writes that fail in the middle of a frame, see `C100_midframe_violated`. -/
theorem C104_logged_partial (host : Option Bytes) (pid out : Nat) (p : Int) (app : Bytes) (hpid : pid < 2 ^ 63) (s0 s : Syslog) (x : Int)
    (c0 : Channel) (h0 : Syslog.new host pid out p app = some s0) (hfirst : s0.channel x = .ret (s, c0))
    (prog : Nat → Nat → List LogCall) (hl : ∀ g n, ∀ c ∈ prog g n, Loggable c)
    (ev : Nat → Option FEvent) (st : Nat → FState) (hlog : BeginLines s out prog ev)
    (hsize : ∀ n g m, ev n = some (.call g (.send m)) → ∀ b, m.marshal = .ret (.ok b) → b.length < 2 ^ 62) (hx : FExec .rfc5425 ev st)
    (hrun : RunnerScheduled .rfc5425 ev st) (hgo : ∀ g, Scheduled .rfc5425 g ev st) (hread : ErrorsRead fun n => (st n).s)
    (hcs : ∀ n, (st n).s.crashed = false) (hrec : Recovers (environment ev)) (hend : ∀ n g, ev n ≠ some (.call g .endCall))
    (hclean : ∀ n nb x, ev n = some (.other (.write nb (some x))) → nb = 0)
    (lenQueue : Nat) (er : Nat → Option Recv.Event) (sr : Nat → Recv.State)
    (hxr : ReceiverExec .rfc5425 lenQueue er sr) (hcons : Consumed .rfc5425 lenQueue er sr) (herr : ErrorsDrained sr)
    (hc : ∀ n, (sr n).crashed = false) (f : Nat → Nat)
    (hopen : ∀ j, Opened (fun n => (st n).s) j → Served .rfc5425 lenQueue (f j) er sr ∧ ∃ n, f j < (sr n).conns.length)
    (hlink : Links (fun n => (st n).s) f er) (n : Nat) :
    ∃ m k a, LinesBefore p prog n a ∧ Each (Says host pid p app) (a.map (·.2)) ((receivedOver f k (sr m).got).take a.length) := by
  have hmsgs : ∀ n g m, ev n = some (.call g (.send m)) → Transmissible m := by
    intro n g m h
    obtain ⟨cl, h1, h2⟩ := line_of_call h0 hfirst hlog h
    exact ⟨says_intact hpid h2 (hl g (n + 1) cl h1), hsize n g m h⟩
  obtain ⟨m, k, a, ⟨n', ha⟩, main⟩ := C104_delivered_partial ev st hx hrun hgo hread hcs hrec hend hclean hmsgs lenQueue er sr hxr hcons herr hc f
    hopen hlink n
  obtain ⟨b, h1, h2⟩ := lines_said h0 hfirst hlog ha
  refine ⟨m, k, b, h1, ?_⟩
  have hlen : b.length = a.length := by have := each_length h2; simpa using this.symm
  rw [hlen]
  exact each_trans h2 main (fun _ _ _ _ u v => says_received u v)

/-- **C104**, log lines with the LF and NUL transports. -/
theorem C104_logged_lines_partial (t : Transport) (z : UInt8) (ht : t = .lfEnded ∧ z = 10 ∨ t = .zeroEnded ∧ z = 0)
    (host : Option Bytes) (pid out : Nat) (p : Int) (app : Bytes) (hpid : pid < 2 ^ 63) (s0 s : Syslog) (x : Int)
    (c0 : Channel) (h0 : Syslog.new host pid out p app = some s0) (hfirst : s0.channel x = .ret (s, c0))
    (prog : Nat → Nat → List LogCall) (hl : ∀ g n, ∀ c ∈ prog g n, LoggableLine z c)
    (ev : Nat → Option FEvent) (st : Nat → FState) (hlog : BeginLines s out prog ev) (hx : FExec t ev st)
    (hrun : RunnerScheduled t ev st) (hgo : ∀ g, Scheduled t g ev st) (hread : ErrorsRead fun n => (st n).s)
    (hcs : ∀ n, (st n).s.crashed = false) (hrec : Recovers (environment ev)) (hend : ∀ n g, ev n ≠ some (.call g .endCall))
    (hclean : ∀ n nb x, ev n = some (.other (.write nb (some x))) → nb = 0)
    (lenQueue : Nat) (er : Nat → Option Recv.Event) (sr : Nat → Recv.State)
    (hxr : ReceiverExec t lenQueue er sr) (hcons : Consumed t lenQueue er sr) (herr : ErrorsDrained sr)
    (hc : ∀ n, (sr n).crashed = false) (f : Nat → Nat)
    (hopen : ∀ j, Opened (fun n => (st n).s) j → Served t lenQueue (f j) er sr ∧ ∃ n, f j < (sr n).conns.length)
    (hlink : Links (fun n => (st n).s) f er) (n : Nat) :
    ∃ m k a, LinesBefore p prog n a ∧ Each (Says host pid p app) (a.map (·.2)) ((receivedOver f k (sr m).got).take a.length) := by
  have hmsgs : ∀ n g m, ev n = some (.call g (.send m)) → TransmissibleLine z m := by
    intro n g m h
    obtain ⟨cl, h1, h2⟩ := line_of_call h0 hfirst hlog h
    exact says_line hpid h2 (hl g (n + 1) cl h1)
  obtain ⟨m, k, a, ⟨n', ha⟩, main⟩ := C104_lines_partial t z ht ev st hx hrun hgo hread hcs hrec hend hclean hmsgs lenQueue er sr hxr hcons herr hc f
    hopen hlink n
  obtain ⟨b, h1, h2⟩ := lines_said h0 hfirst hlog ha
  refine ⟨m, k, b, h1, ?_⟩
  have hlen : b.length = a.length := by have := each_length h2; simpa using this.symm
  rw [hlen]
  exact each_trans h2 main (fun _ _ _ _ u v => says_received u v)

/-! ## executions that meet the hypotheses -/

/-- The state after the first `i` events of `es`. -/
def fafter (t : Transport) (es : List FEvent) (i : Nat) : FState := (frun t finit (es.take i)).getD finit

/-- The events `es`, those from `p` on repeated for ever. -/
def flassoEv (es : List FEvent) (p l n : Nat) : Option FEvent := es[lasso p l n]?

def flassoSt (t : Transport) (es : List FEvent) (p l n : Nat) : FState := fafter t es (lasso p l n)

theorem fafter_run {t : Transport} {es : List FEvent} (h : (frun t finit es).isSome = true) (i : Nat) :
    frun t finit (es.take i) = some (fafter t es i) := by
  have := h
  rw [← List.take_append_drop i es, frun_append] at this
  unfold fafter
  cases hr : frun t finit (es.take i) with
  | none => rw [hr] at this; simp at this
  | some f => rfl

theorem flasso_exec (t : Transport) (es : List FEvent) (p l : Nat) (hl : 0 < l) (hlen : es.length ≤ p + l)
    (hrun : (frun t finit es).isSome = true) (hclose : fafter t es (p + l) = fafter t es p) :
    FExec t (flassoEv es p l) (flassoSt t es p l) := by
  have hnext : ∀ n, flassoSt t es p l (n + 1) = fafter t es (lasso p l n + 1) := by
    intro n
    obtain ⟨h1, h2⟩ := lasso_succ p l n hl
    unfold flassoSt
    rw [h2]
    split
    · next h => rw [h, hclose]
    · rfl
  refine ⟨?_, ?_, ?_⟩
  · have : lasso p l 0 = 0 := by
      unfold lasso
      split
      · rfl
      · rw [Nat.zero_sub, Nat.zero_mod]; omega
    simp only [flassoSt, this]
    rfl
  · intro n e he
    rw [hnext]
    have h1 := fafter_run hrun (lasso p l n)
    have h2 := fafter_run hrun (lasso p l n + 1)
    rw [List.take_add_one, frun_append, h1] at h2
    unfold flassoEv at he
    rw [he] at h2
    simp only [Option.toList_some, Option.bind_some, frun] at h2
    unfold flassoSt
    cases hs : fstep t (fafter t es (lasso p l n)) e with
    | none => rw [hs] at h2; cases h2
    | some f => rw [hs] at h2; exact h2
  · intro n he
    rw [hnext]
    unfold flassoEv at he
    unfold flassoSt fafter
    rw [List.take_add_one, he]
    simp

/-- Events of the sender and of the environment do not move the goroutines of the user. -/
theorem others_same {t : Transport} : ∀ (es : List Event) (f f' : FState), frun t f (es.map .other) = some f' → f'.at_ = f.at_ ∧ f'.holder = f.holder
  | [], f, f', h => by simp only [List.map_nil, frun, Option.some.injEq] at h; subst h; exact ⟨rfl, rfl⟩
  | e :: es, f, f', h => by
    simp only [List.map_cons, frun] at h
    cases hs : fstep t f (.other e) with
    | none => rw [hs] at h; cases h
    | some f1 =>
      rw [hs] at h
      obtain ⟨h1, h2⟩ := others_same es f1 f' h
      have : f1.at_ = f.at_ ∧ f1.holder = f.holder := by
        unfold fstep at hs
        split at hs
        · cases hs
        · simp only at hs
          split at hs
          · cases hs
          · cases hs
          · split at hs
            · cases hs
            · cases hst : step t f.s e with
              | none => rw [hst] at hs; cases hs
              | some s' =>
                rw [hst] at hs
                simp only [Option.map_some, Option.some.injEq] at hs
                subst hs
                exact ⟨rfl, rfl⟩
      exact ⟨h1.trans this.1, h2.trans this.2⟩

/-- A goroutine that has not called anything is idle. -/
theorem idle_of_no_call {t : Transport} {h : List FEvent} {f : FState} (hh : FHistory t h f) (hc : f.s.crashed = false) {g : Nat} (hg : called g h = []) :
    f.at_ g = .idle := by
  obtain ⟨l, hl⟩ := cinv_run (cinv_init t) hh
  have hpl := hl.place hc g
  simp only [List.nil_append] at hpl
  have no : ∀ (o : CallOp) (c' : List CallOp), called g h ≠ c' ++ [o] := by
    intro o c' h
    rw [hg] at h
    simp at h
  cases hat : f.at_ g with
  | idle => rfl
  | close => rw [hat] at hpl; obtain ⟨c', h1, _⟩ := hpl; exact absurd h1 (no _ _)
  | wait => rw [hat] at hpl; obtain ⟨c', h1, _⟩ := hpl; exact absurd h1 (no _ _)
  | marshal m => rw [hat] at hpl; obtain ⟨c', h1, _⟩ := hpl; exact absurd h1 (no _ _)
  | lock m b => rw [hat] at hpl; obtain ⟨⟨c', h1, _⟩, _⟩ := hpl; exact absurd h1 (no _ _)
  | append m b => rw [hat] at hpl; obtain ⟨⟨c', h1, _⟩, _⟩ := hpl; exact absurd h1 (no _ _)
  | unlock m => rw [hat] at hpl; obtain ⟨⟨c', h1, _⟩, _⟩ := hpl; exact absurd h1 (no _ _)
  | retSend m e =>
    rw [hat] at hpl
    cases e with
    | none => obtain ⟨⟨c', h1, _⟩, _⟩ := hpl; exact absurd h1 (no _ _)
    | some e => obtain ⟨⟨c', h1, _⟩, _⟩ := hpl; exact absurd h1 (no _ _)

/-- Goroutines that are idle at last are scheduled. -/
theorem idle_scheduled {t : Transport} {ev : Nat → Option FEvent} {st : Nat → FState} {g N : Nat} (h : ∀ n, N ≤ n → (st n).at_ g = .idle) :
    Scheduled t g ev st := by
  intro hen
  exfalso
  obtain ⟨m, hm, e, he, hs⟩ := hen N
  apply hs
  unfold fstep
  split
  · rfl
  · cases e with
    | tau g' =>
      have : g' = g := by simpa [isStepOf] using he
      subst this
      simp only [h m hm]
    | ret g' =>
      have : g' = g := by simpa [isStepOf] using he
      subst this
      simp only [h m hm]
    | call _ _ => simp [isStepOf] at he
    | other _ => simp [isStepOf] at he

/-- The program of `C101`, its two lines in two goroutines: the second one begins `Send` while the first one is inside, and its message is taken after the
first one was written. -/
def twoForever : List FEvent :=
  [.call 1 (.send demoLineLogged), .tau 1, .call 2 (.send demoLineLogged), .tau 1, .tau 1, .tau 1, .ret 1] ++
  ((loggedForever.drop 1).take 9).map .other ++ [.tau 2, .tau 2, .tau 2, .tau 2, .ret 2] ++ (loggedForever.drop 11).map .other

theorem twoForever_run : (frun .lfEnded finit twoForever).isSome = true := by decide +kernel

theorem twoForever_close : fafter .lfEnded twoForever 43 = fafter .lfEnded twoForever 38 := by
  have h1 := fafter_run twoForever_run 38
  have h2 := fafter_run twoForever_run 43
  have he : twoForever.take 43 = twoForever.take 38 ++ ([.tick, .tau, .tau, .tau, .tau] : List Event).map .other := rfl
  rw [he, frun_append, h1] at h2
  obtain ⟨h3, h4⟩ := others_same _ _ _ h2
  have h5 : (fafter .lfEnded twoForever 43).s = (fafter .lfEnded twoForever 38).s := by decide +kernel
  cases hf : fafter .lfEnded twoForever 43 with
  | mk a b c =>
    cases hg : fafter .lfEnded twoForever 38 with
    | mk a' b' c' =>
      rw [hf, hg] at h3 h4 h5
      simp only at h3 h4 h5
      rw [h3, h4, h5]

theorem twoForever_conns : ∀ i, i < 43 → (fafter .lfEnded twoForever i).s.conns.length = (if i ≤ 9 then 0 else if i ≤ 30 then 1 else 2) ∧
    connBytes 0 (fafter .lfEnded twoForever i).s = (if i ≤ 12 then [] else demoLineLoggedFrame) ∧
    connBytes 1 (fafter .lfEnded twoForever i).s = (if i ≤ 33 then [] else demoLineLoggedFrame) := by decide +kernel

theorem twoForever_calls : ∀ i, i < 43 → ∀ g, givenBy g (twoForever[i]?).toList = (if g = 1 ∧ i = 0 ∨ g = 2 ∧ i = 2 then [demoLineLogged] else []) := by
  intro i hi g
  have hno : ∀ i, i < 43 → (decide (i = 0 ∨ i = 2) || match (twoForever[(i : Nat)]?) with | some (FEvent.call _ _) => false | _ => true) = true := by
    decide +kernel
  have := hno i hi
  by_cases h0 : i = 0
  · subst h0
    show givenBy g [.call 1 (.send demoLineLogged)] = _
    by_cases hg : 1 = g
    · simp [givenBy, called, hg, messagesOf]
    · simp [givenBy, called, hg, messagesOf, Ne.symm hg]
  · by_cases h2 : i = 2
    · subst h2
      show givenBy g [.call 2 (.send demoLineLogged)] = _
      by_cases hg : 2 = g
      · simp [givenBy, called, hg, messagesOf]
      · simp [givenBy, called, hg, messagesOf, Ne.symm hg]
    · rw [decide_eq_false (by omega), Bool.false_or] at this
      rw [if_neg (by omega)]
      cases he : twoForever[i]? with
      | none => rfl
      | some e => rw [he] at this; cases e <;> first | rfl | cases this

theorem twoForever_given (g n : Nat) : givenBy g (past (flassoEv twoForever 38 5) n) =
    if g = 1 ∧ 0 < n ∨ g = 2 ∧ 2 < n then [demoLineLogged] else [] := by
  induction n with
  | zero => simp [past, givenBy, called, messagesOf]
  | succ n ih =>
    have happ : ∀ a b : List FEvent, givenBy g (a ++ b) = givenBy g a ++ givenBy g b := by
      intro a b
      unfold givenBy
      rw [called_append]
      simp [messagesOf]
    have hi' := (lasso_succ 38 5 n (by omega)).1
    rw [past_succ, happ, ih]
    unfold flassoEv
    rw [twoForever_calls _ hi']
    have hl : lasso 38 5 n = n ∧ n < 38 ∨ 38 ≤ lasso 38 5 n ∧ 38 ≤ n := by unfold lasso; split <;> omega
    rcases hl with ⟨h1, h2⟩ | ⟨h1, h2⟩
    · rw [h1]
      by_cases hg : g = 1
      · subst hg
        rcases Nat.eq_zero_or_pos n with rfl | h3
        · rfl
        · rw [if_pos (by omega), if_neg (by omega), if_pos (by omega)]; rfl
      · by_cases hg2 : g = 2
        · subst hg2
          rcases Nat.lt_trichotomy n 2 with h4 | rfl | h4
          · rw [if_neg (by omega), if_neg (by omega), if_neg (by omega)]; rfl
          · rfl
          · rw [if_pos (by omega), if_neg (by omega), if_pos (by omega)]; rfl
        · rw [if_neg (by omega), if_neg (by omega), if_neg (by omega)]; rfl
    · by_cases hg : g = 1
      · subst hg
        rw [if_pos (by omega), if_neg (by omega), if_pos (by omega)]; rfl
      · by_cases hg2 : g = 2
        · subst hg2
          rw [if_pos (by omega), if_neg (by omega), if_pos (by omega)]; rfl
        · rw [if_neg (by omega), if_neg (by omega), if_neg (by omega)]; rfl

theorem twoForever_idle (g n : Nat) (hn : 38 ≤ n) : (flassoSt .lfEnded twoForever 38 5 n).at_ g = .idle := by
  have hex := flasso_exec .lfEnded twoForever 38 5 (by omega) (by decide +kernel) twoForever_run twoForever_close
  have h38 : (flassoSt .lfEnded twoForever 38 5 38).at_ g = .idle := by
    have hh := fafter_run twoForever_run 38
    by_cases h1 : g = 1
    · subst h1
      have : (match (flassoSt .lfEnded twoForever 38 5 38).at_ 1 with | .idle => true | _ => false) = true := by decide +kernel
      split at this
      · assumption
      · cases this
    · by_cases h2 : g = 2
      · subst h2
        have : (match (flassoSt .lfEnded twoForever 38 5 38).at_ 2 with | .idle => true | _ => false) = true := by decide +kernel
        split at this
        · assumption
        · cases this
      · refine idle_of_no_call (t := .lfEnded) (h := twoForever.take 38) hh (by decide +kernel) ?_
        have e : twoForever.take 38 = [.call 1 (.send demoLineLogged), .tau 1, .call 2 (.send demoLineLogged), .tau 1, .tau 1, .tau 1, .ret 1] ++
          ((loggedForever.drop 1).take 9).map .other ++ [.tau 2, .tau 2, .tau 2, .tau 2, .ret 2] ++ ((loggedForever.drop 11).take 17).map .other := rfl
        rw [e]
        have ho : ∀ es : List Event, called g (es.map .other) = [] := by
          intro es
          induction es with
          | nil => rfl
          | cons _ _ ih => exact ih
        simp only [called_append, ho, List.append_nil]
        simp [called, Ne.symm h1, Ne.symm h2]
  refine stays hex (fun f => f.at_ g = .idle) 38 h38 ?_ n hn
  intro m hm e he h
  have hi : 38 ≤ lasso 38 5 m := by unfold lasso; split <;> omega
  have hi' := (lasso_succ 38 5 m (by omega)).1
  have hall : ∀ i, i < 43 → 38 ≤ i → (match (twoForever[(i : Nat)]?) with | some (FEvent.other _) => true | _ => false) = true := by decide +kernel
  have := hall _ hi' hi
  unfold flassoEv at he
  rw [he] at this
  cases e with
  | other x =>
    have hs := hex.event m _ he
    obtain ⟨h1, _⟩ := others_same [x] _ _ (show frun .lfEnded _ [.other x] = _ by simp only [frun]; rw [hs]; rfl)
    rw [h1]; exact h
  | call _ _ => cases this
  | tau _ => cases this
  | ret _ => cases this

theorem twoForever_opened (j : Nat) (h : Opened (fun n => (flassoSt .lfEnded twoForever 38 5 n).s) j) : j = 0 ∨ j = 1 := by
  obtain ⟨n, hn⟩ := h
  have := (twoForever_conns _ (lasso_succ 38 5 n (by omega)).1).1
  unfold flassoSt at hn
  rw [this] at hn
  split at hn
  · omega
  · split at hn <;> omega

/-- What goroutine `g` has begun at the moment `n`. -/
def twoProgs (g n : Nat) : List LogCall := if g = 1 ∧ 0 < n ∨ g = 2 ∧ 2 < n then demoLineLog.take 1 else []

/-- The hypotheses on the sender. -/
theorem twoForever_meets : ∃ s0 s c0, Syslog.new (some b!"host") 42 3 166 b!"app" = some s0 ∧ s0.channel 0 = .ret (s, c0) ∧
    BeginLines s 3 twoProgs (flassoEv twoForever 38 5) ∧ (∀ g n, ∀ c ∈ twoProgs g n, c ∈ demoLineLog) ∧
    FExec .lfEnded (flassoEv twoForever 38 5) (flassoSt .lfEnded twoForever 38 5) ∧
    RunnerScheduled .lfEnded (flassoEv twoForever 38 5) (flassoSt .lfEnded twoForever 38 5) ∧
    (∀ g, Scheduled .lfEnded g (flassoEv twoForever 38 5) (flassoSt .lfEnded twoForever 38 5)) ∧
    ErrorsRead (fun n => (flassoSt .lfEnded twoForever 38 5 n).s) ∧ (∀ n, (flassoSt .lfEnded twoForever 38 5 n).s.crashed = false) ∧
    Recovers (environment (flassoEv twoForever 38 5)) ∧ (∀ n g, flassoEv twoForever 38 5 n ≠ some (.call g .endCall)) ∧
    (∀ n nb x, flassoEv twoForever 38 5 n = some (.other (.write nb (some x))) → nb = 0) := by
  have hex := flasso_exec .lfEnded twoForever 38 5 (by omega) (by decide +kernel) twoForever_run twoForever_close
  refine ⟨(Syslog.new (some b!"host") 42 3 166 b!"app").get rfl,
    { (Syslog.new (some b!"host") 42 3 166 b!"app").get rfl with channels := ((Syslog.new (some b!"host") 42 3 166 b!"app").get rfl).table }, _,
    rfl, by with_unfolding_all rfl, ⟨?_, ?_⟩, ?_, hex, ?_, ?_, ?_, ?_, ⟨38, ?_⟩, ?_, ?_⟩
  · intro g n m hnm
    show (if g = 1 ∧ 0 < n ∨ g = 2 ∧ 2 < n then demoLineLog.take 1 else []) <+: (if g = 1 ∧ 0 < m ∨ g = 2 ∧ 2 < m then demoLineLog.take 1 else [])
    split
    · rw [if_pos (by omega)]; exact List.prefix_refl _
    · exact List.nil_prefix
  · intro g n
    rw [twoForever_given]
    show logAll _ (if g = 1 ∧ 0 < n ∨ g = 2 ∧ 2 < n then demoLineLog.take 1 else []) = _
    split
    · with_unfolding_all rfl
    · rfl
  · intro g n c hc
    unfold twoProgs at hc
    split at hc
    · exact List.mem_of_mem_take hc
    · cases hc
  · intro _ n
    obtain ⟨m, hm, h⟩ := lasso_again 38 5 0 (by omega) n
    exact ⟨m, hm, .other .tick, by simp only [flassoEv, h]; rfl, rfl⟩
  · exact fun g => idle_scheduled (twoForever_idle g)
  · intro n _
    obtain ⟨m, hm, h⟩ := lasso_again 38 5 0 (by omega) n
    refine ⟨m, hm, ?_⟩
    simp only [flassoSt, h]
    decide +kernel
  · exact lasso_all 38 5 (by omega) (fun i => (fafter .lfEnded twoForever i).s.crashed = false) (by decide +kernel)
  · intro n hn e he
    have hi : 38 ≤ lasso 38 5 n := by unfold lasso; split <;> omega
    have hi' := (lasso_succ 38 5 n (by omega)).1
    have hall : ∀ i, i < 43 → 38 ≤ i → (match (twoForever[(i : Nat)]?) with | some (FEvent.other e) => fails e | _ => false) = false := by decide +kernel
    have := hall _ hi' hi
    unfold environment flassoEv at he
    split at he
    · next h => rw [h] at this; simp only [Option.some.injEq] at he; subst he; exact this
    · cases he
  · intro n g he
    have hi' := (lasso_succ 38 5 n (by omega)).1
    have hall : ∀ i, i < 43 → (match (twoForever[(i : Nat)]?) with | some (FEvent.call _ .endCall) => false | _ => true) = true := by decide +kernel
    have := hall _ hi'
    unfold flassoEv at he
    rw [he] at this
    cases this
  · intro n nb x he
    have hi' := (lasso_succ 38 5 n (by omega)).1
    have hall : ∀ i, i < 43 → (match (twoForever[(i : Nat)]?) with | some (FEvent.other (.write nb (some _))) => decide (nb = 0) | _ => true) = true := by decide +kernel
    have := hall _ hi'
    unfold flassoEv at he
    rw [he] at this
    exact of_decide_eq_true this

/-- The network of the example: the two connections bring the two frames. -/
theorem twoForever_links {er : Nat → Option Recv.Event} {es : List Recv.Event} {N : Nat} (hpast : ∀ m, past er m <+: es) (hN : past er N = es)
    (h0 : arrived (readsOf 0 es) = demoLineLoggedFrame) (h1 : arrived (readsOf 1 es) = demoLineLoggedFrame) :
    Links (fun n => (flassoSt .lfEnded twoForever 38 5 n).s) id er := by
  refine ⟨?_, ?_⟩
  · intro j hj m
    refine ⟨38, ?_⟩
    have hb : connBytes j (flassoSt .lfEnded twoForever 38 5 38).s = demoLineLoggedFrame := by
      rcases twoForever_opened j hj with rfl | rfl <;> decide +kernel
    show arrived (readsOf j _) <+: _
    rw [hb]
    have ha : arrived (readsOf j es) = demoLineLoggedFrame := by
      rcases twoForever_opened j hj with rfl | rfl
      · exact h0
      · exact h1
    obtain ⟨r, hr⟩ := hpast m
    rw [← hr, Recv.readsOf_append] at ha
    rw [← ha]
    simp only [arrived, List.flatMap_append]
    exact List.prefix_append _ _
  · intro j hj n
    refine ⟨N, ?_⟩
    show _ <+: arrived (readsOf j _)
    rw [hN]
    have := (twoForever_conns _ (lasso_succ 38 5 n (by omega)).1).2
    unfold flassoSt
    rcases twoForever_opened j hj with rfl | rfl
    · rw [this.1, h0]; split
      · exact List.nil_prefix
      · exact List.prefix_refl _
    · rw [this.2, h1]; split
      · exact List.nil_prefix
      · exact List.prefix_refl _

/-- Every hypothesis of `C104_logged_lines_partial` (and with it of `C104_lines_partial` and `C104_send_returns`) is met by this execution. -/
example : ∃ s0 s c0 prog ev st er sr, Syslog.new (some b!"host") 42 3 166 b!"app" = some s0 ∧ s0.channel 0 = .ret (s, c0) ∧ BeginLines s 3 prog ev ∧
    prog 1 1 = demoLineLog.take 1 ∧ prog 2 3 = demoLineLog.take 1 ∧ (∀ g n, ∀ c ∈ prog g n, c ∈ demoLineLog) ∧
    FExec .lfEnded ev st ∧ RunnerScheduled .lfEnded ev st ∧ (∀ g, Scheduled .lfEnded g ev st) ∧ ErrorsRead (fun n => (st n).s) ∧
    (∀ n, (st n).s.crashed = false) ∧ Recovers (environment ev) ∧ (∀ n g, ev n ≠ some (.call g .endCall)) ∧
    (∀ n nb x, ev n = some (.other (.write nb (some x))) → nb = 0) ∧
    ReceiverExec .lfEnded 0 er sr ∧ Consumed .lfEnded 0 er sr ∧ ErrorsDrained sr ∧ (∀ n, (sr n).crashed = false) ∧
    (∀ j, Opened (fun n => (st n).s) j → Served .lfEnded 0 j er sr ∧ ∃ n, j < (sr n).conns.length) ∧ Opened (fun n => (st n).s) 1 ∧
    Links (fun n => (st n).s) id er := by
  obtain ⟨q, hq, h1, h2, h3, h4, h5⟩ := demoLineLogReceived_run
  have hfair := fun j => Recv.fin_fair hq h2 (by rw [h3]; decide) h5 j
  obtain ⟨s0, s, c0, k1, k2, k3, k4, k5, k6, k7, k8, k9, k10, k11, k12⟩ := twoForever_meets
  refine ⟨s0, s, c0, twoProgs, flassoEv twoForever 38 5, flassoSt .lfEnded twoForever 38 5, fun n => demoLineLogReceived[n]?,
    Recv.finSt .lfEnded 0 demoLineLogReceived, k1, k2, k3, rfl, rfl, k4, k5, k6, k7, k8, k9, k10, k11, k12,
    Recv.fin_exec hq, (hfair 0).1, (hfair 0).2.1, Recv.fin_alive hq h1, ?_, ⟨38, ?_⟩,
    twoForever_links (es := demoLineLogReceived) (N := 9) (fun m => by rw [demoLogged_past]; exact List.take_prefix _ _) (by rw [demoLogged_past]; rfl)
      (by decide +kernel) (by decide +kernel)⟩
  · intro j hj
    refine ⟨(hfair j).2.2, 9, ?_⟩
    rw [Recv.fin_end hq (by decide)]
    rcases twoForever_opened j hj with rfl | rfl <;> omega
  · decide +kernel

/-- A goroutine sends, another one calls `End` before the message was written. -/
def twoEnded : List FEvent :=
  [.call 1 (.send (exMsg b!"x")), .tau 1, .tau 1, .tau 1, .tau 1, .call 2 .endCall, .tau 2, .ret 1] ++ (exEnded.drop 2).map .other ++ [.ret 2]

theorem twoEnded_run : (frun .lfEnded finit twoEnded).isSome = true := by decide +kernel

/-- Every hypothesis of `C104_end_returns` is met by this execution. -/
example : ∃ ev st, FExec .lfEnded ev st ∧ RunnerScheduled .lfEnded ev st ∧ (∀ g, Scheduled .lfEnded g ev st) ∧ ErrorsRead (fun n => (st n).s) ∧
    (∀ n, (st n).s.crashed = false) ∧ (∀ n g m, ev n = some (.call g (.send m)) → m.marshal ≠ .hang) ∧ Recovers (environment ev) ∧ SendCallsStop ev ∧
    NoticesEnd (environment ev) (fun n => (st n).s) ∧ ev 5 = some (.call 2 .endCall) := by
  have hend : ∀ n, 23 ≤ n → lasso 23 1 n = 23 := by intro n hn; unfold lasso; split <;> omega
  have hnone : twoEnded[(23 : Nat)]? = none := rfl
  have hs23 : (fafter .lfEnded twoEnded 23).s = ⟨[], [⟨[b!"<14>1 1970-01-01T00:00:00Z h a 1 - - x\n"], true⟩], true, false, [], true, true, true, false, .done⟩ := by
    decide +kernel
  refine ⟨flassoEv twoEnded 23 1, flassoSt .lfEnded twoEnded 23 1, flasso_exec .lfEnded twoEnded 23 1 (by omega) (by decide +kernel) twoEnded_run rfl,
    ?_, ?_, ?_, ?_, ?_, ⟨23, ?_⟩, ⟨23, ?_⟩, ?_, rfl⟩
  · intro hen
    exfalso
    obtain ⟨m, hm, e, he, hs⟩ := hen 23
    simp only [flassoSt, hend m hm] at hs
    apply hs
    unfold fstep
    split
    · rfl
    · cases e with
      | other e =>
        simp only [isRunnerStep] at he
        cases e <;> simp [isRunner] at he <;> simp [step, hs23, takesLock]
      | call _ _ => simp [isRunnerStep] at he
      | tau _ => simp [isRunnerStep] at he
      | ret _ => simp [isRunnerStep] at he
  · intro g
    refine idle_scheduled (N := 23) (fun n hn => ?_)
    simp only [flassoSt, hend n hn]
    have hh := fafter_run twoEnded_run 23
    by_cases h1 : g = 1
    · subst h1
      have : (match (fafter .lfEnded twoEnded 23).at_ 1 with | .idle => true | _ => false) = true := by decide +kernel
      split at this
      · assumption
      · cases this
    · by_cases h2 : g = 2
      · subst h2
        have : (match (fafter .lfEnded twoEnded 23).at_ 2 with | .idle => true | _ => false) = true := by decide +kernel
        split at this
        · assumption
        · cases this
      · refine idle_of_no_call (t := .lfEnded) (h := twoEnded.take 23) hh (by rw [hs23]) ?_
        have e : twoEnded.take 23 = twoEnded := rfl
        rw [e]
        unfold twoEnded
        have ho : ∀ es : List Event, called g (es.map .other) = [] := by
          intro es
          induction es with
          | nil => rfl
          | cons _ _ ih => exact ih
        simp only [called_append, ho, List.append_nil]
        simp [called, Ne.symm h1, Ne.symm h2]
  · intro n _
    refine ⟨max n 23, Nat.le_max_left _ _, ?_⟩
    simp only [flassoSt, hend _ (Nat.le_max_right n 23), hs23]
  · exact lasso_all 23 1 (by omega) (fun i => (fafter .lfEnded twoEnded i).s.crashed = false) (by decide +kernel)
  · intro n g m he
    have hi' := (lasso_succ 23 1 n (by omega)).1
    have hall : ∀ i, i < 24 → (match (twoEnded[(i : Nat)]?) with | some (FEvent.call _ (.send m)) => (match m.marshal with | .hang => false | _ => true) | _ => true) = true := by
      decide +kernel
    have := hall _ hi'
    unfold flassoEv at he
    rw [he] at this
    intro hm
    simp only [hm] at this
    cases this
  · intro n hn e he
    simp only [environment, flassoEv, hend n hn, hnone] at he
    cases he
  · intro n hn g m he
    simp only [flassoEv, hend n hn, hnone] at he
    cases he
  · intro _
    exact ⟨8, rfl⟩

end Syslog5424
