import Verif.Spec.Calls
import Verif.Lemmas.Sender
/-! # Lemmas about calls made of steps -/
namespace Syslog5424.Sender
open Spec

theorem called_append (g : Nat) (a b : List FEvent) : called g (a ++ b) = called g a ++ called g b := by
  induction a with
  | nil => rfl
  | cons e r ih =>
    cases e with
    | call g' o =>
      simp only [List.cons_append, called]
      split
      · rw [ih]; rfl
      · exact ih
    | tau _ => exact ih
    | ret _ => exact ih
    | other _ => exact ih

theorem returns_append (g : Nat) (a b : List FEvent) : returns g (a ++ b) = returns g a + returns g b := by
  induction a with
  | nil => simp [returns]
  | cons e r ih =>
    cases e with
    | ret g' =>
      simp only [List.cons_append, returns, ih]
      omega
    | call _ _ => exact ih
    | tau _ => exact ih
    | other _ => exact ih

theorem others_append (a b : List FEvent) : others (a ++ b) = others a ++ others b := by
  induction a with
  | nil => rfl
  | cons e r ih =>
    cases e with
    | other e => simp only [List.cons_append, others, ih]
    | call _ _ => exact ih
    | tau _ => exact ih
    | ret _ => exact ih

theorem own_append (g : Nat) (a b : List (Option Nat × Event)) : own g (a ++ b) = own g a ++ own g b := by
  simp [own, List.filter_append]

theorem rest_append (a b : List (Option Nat × Event)) : rest (a ++ b) = rest a ++ rest b := by
  simp [rest, List.filter_append]

theorem frun_append (t : Transport) (f : FState) (a b : List FEvent) :
    frun t f (a ++ b) = (frun t f a).bind fun f' => frun t f' b := by
  induction a generalizing f with
  | nil => rfl
  | cons e r ih =>
    simp only [List.cons_append, frun]
    cases fstep t f e with
    | none => rfl
    | some f' => exact ih f'

/-- The call `o` began and did not take place yet. -/
def Before (o : CallOp) (c : List CallOp) (l : List Event) (n : Nat) : Prop :=
  ∃ c', c = c' ++ [o] ∧ l = c'.map opEvent ∧ n = c'.length

/-- The call `o` took place and did not return yet. -/
def After (o : CallOp) (c : List CallOp) (l : List Event) (n : Nat) : Prop :=
  ∃ c', c = c' ++ [o] ∧ l = c.map opEvent ∧ n = c'.length

/-- What is known of a goroutine from the place where it is: its calls, those that took place, the number of those that
returned. -/
def PlaceOk : G → List CallOp → List Event → Nat → Prop
  | .idle, c, l, n => l = c.map opEvent ∧ n = c.length
  | .marshal m, c, l, n => Before (.send m) c l n
  | .lock m b, c, l, n => Before (.send m) c l n ∧ m.marshal = .ret (.ok b)
  | .append m b, c, l, n => Before (.send m) c l n ∧ m.marshal = .ret (.ok b)
  | .unlock m, c, l, n => After (.send m) c l n ∧ ∃ b, m.marshal = .ret (.ok b)
  | .retSend m none, c, l, n => After (.send m) c l n ∧ ∃ b, m.marshal = .ret (.ok b)
  | .retSend m (some e), c, l, n => After (.send m) c l n ∧ m.marshal = .ret (.error e)
  | .close, c, l, n => Before .endCall c l n
  | .wait, c, l, n => After .endCall c l n

/-- What always holds. -/
structure CInv (t : Transport) (h : List FEvent) (f : FState) (l : List (Option Nat × Event)) : Prop where
  ex : Explains t h f l
  excl : f.holder.isSome → f.s.locked = false
  place : f.s.crashed = false → ∀ g, PlaceOk (f.at_ g) (called g h) (own g l) (returns g h)
  hold : f.s.crashed = false → ∀ g, f.holder = some g ↔ inside (f.at_ g) = true
  asked : f.s.crashed = false → ∀ g, f.at_ g = .wait → f.s.endAsked = true

theorem PlaceOk.weak {x : G} {c : List CallOp} {l : List Event} {n : Nat} (h : PlaceOk x c l n) :
    l <+: c.map opEvent ∧ n ≤ l.length := by
  have hb {o : CallOp} (h : Before o c l n) : l <+: c.map opEvent ∧ n ≤ l.length := by
    obtain ⟨c', rfl, rfl, rfl⟩ := h
    simp
  have ha {o : CallOp} (h : After o c l n) : l <+: c.map opEvent ∧ n ≤ l.length := by
    obtain ⟨c', rfl, rfl, rfl⟩ := h
    simp
  cases x with
  | idle => obtain ⟨rfl, rfl⟩ := h; simp
  | marshal => exact hb h
  | lock => exact hb h.1
  | append => exact hb h.1
  | unlock => exact ha h.1
  | retSend m e => cases e <;> exact ha h.1
  | close => exact hb h
  | wait => exact ha h

theorem history_snoc {t : Transport} {es : List Event} {s s' : State} {e : Event} (h : History t es s)
    (hs : step t s e = some s') : History t (es ++ [e]) s' :=
  run_append h (by simp [run, hs])

theorem cinv_init (t : Transport) : CInv t [] finit [] where
  ex := ⟨rfl, fun _ => List.prefix_refl _, fun _ => Nat.le_refl _, rfl⟩
  excl := fun h => by simp [finit] at h
  place := fun _ _ => ⟨rfl, rfl⟩
  hold := fun _ g => by simp [finit, inside]
  asked := fun _ g h => by simp [finit] at h

/-- The lock and `endAsked` change only as expected in a step of `runQueue` or of the environment. -/
theorem other_lock {t : Transport} {s s' : State} {e : Event} (h : step t s e = some s') (h1 : ∀ m, e ≠ .send m)
    (h2 : e ≠ .endCall) :
    (s'.locked = true → s.locked = true ∨ takesLock s.pc e = true) ∧ s'.endAsked = s.endAsked := by
  obtain ⟨_, htr⟩ := step_tr h
  cases htr
  case sendOk => exact absurd rfl (h1 _)
  case sendErr => exact absurd rfl (h1 _)
  case sendPanic => exact absurd rfl (h1 _)
  case endTwice => exact absurd rfl h2
  case endOnce => exact absurd rfl h2
  case lock hp _ => exact ⟨fun _ => Or.inr (by rw [hp]; rfl), rfl⟩
  case unlock => exact ⟨fun h => (Bool.false_ne_true h).elim, rfl⟩
  all_goals exact ⟨Or.inl, rfl⟩

/-- A step of goroutine `g` that does not crash. -/
theorem cinv_local {t : Transport} {h : List FEvent} {f f' : FState} {l l' : List (Option Nat × Event)} {e : FEvent} {g : Nat}
    (hi : CInv t h f l) (hcr : f.s.crashed = false)
    (hfar : ∀ g', g' ≠ g → called g' [e] = [] ∧ returns g' [e] = 0 ∧ own g' l' = [] ∧ f'.at_ g' = f.at_ g' ∧
      (f'.holder = some g' ↔ f.holder = some g'))
    (hg : PlaceOk (f'.at_ g) (called g h ++ called g [e]) (own g l ++ own g l') (returns g h + returns g [e]))
    (hst : History t ((l ++ l').map (·.2)) f'.s) (hrest : rest l' = others [e])
    (hex : f'.holder.isSome → f'.s.locked = false) (hhold : f'.holder = some g ↔ inside (f'.at_ g) = true)
    (hask : f.s.endAsked = true → f'.s.endAsked = true) (haskg : f'.at_ g = .wait → f'.s.endAsked = true) :
    CInv t (h ++ [e]) f' (l ++ l') := by
  have hp : ∀ g', PlaceOk (f'.at_ g') (called g' (h ++ [e])) (own g' (l ++ l')) (returns g' (h ++ [e])) := by
    intro g'
    rw [called_append, own_append, returns_append]
    by_cases hne : g' = g
    · subst hne; exact hg
    · obtain ⟨h1, h2, h3, h4, -⟩ := hfar g' hne
      rw [h1, h2, h3, h4, List.append_nil, List.append_nil]
      exact hi.place hcr g'
  exact {
    ex := ⟨hst, fun g' => (hp g').weak.1, fun g' => (hp g').weak.2, by rw [rest_append, others_append, hi.ex.others, hrest]⟩
    excl := hex
    place := fun _ => hp
    hold := fun _ g' => by
      by_cases hne : g' = g
      · subst hne; exact hhold
      · obtain ⟨-, -, -, h4, h5⟩ := hfar g' hne
        rw [h5, h4]; exact hi.hold hcr g'
    asked := fun _ g' hw => by
      by_cases hne : g' = g
      · subst hne; exact haskg hw
      · exact hask (hi.asked hcr g' (by rw [← (hfar g' hne).2.2.2.1]; exact hw)) }

/-- A step of goroutine `g` that crashes the program. -/
theorem cinv_crash {t : Transport} {h : List FEvent} {f f' : FState} {l : List (Option Nat × Event)} {g : Nat} {o : CallOp}
    (hi : CInv t h f l) (hcr : f.s.crashed = false) (hb : Before o (called g h) (own g l) (returns g h))
    (hst : step t f.s (opEvent o) = some f'.s) (hc' : f'.s.crashed = true) (hh : f'.holder = f.holder) (hl : f'.s.locked = f.s.locked) :
    CInv t (h ++ [.tau g]) f' (l ++ [(some g, opEvent o)]) := by
  have hw : ∀ g', own g' (l ++ [(some g, opEvent o)]) <+: (called g' h).map opEvent ∧
      returns g' h ≤ (own g' (l ++ [(some g, opEvent o)])).length := by
    intro g'
    rw [own_append]
    by_cases hne : g' = g
    · subst hne
      obtain ⟨c', h1, h2, h3⟩ := hb
      rw [h1, h2, h3]
      simp [own]
    · have : own g' [(some g, opEvent o)] = [] := by simp [own, Ne.symm hne]
      rw [this, List.append_nil]
      exact (hi.place hcr g').weak
  exact {
    ex := ⟨by rw [List.map_append]; exact history_snoc hi.ex.state hst,
      fun g' => by rw [called_append]; simpa [called] using (hw g').1,
      fun g' => by rw [returns_append]; simpa [returns] using (hw g').2,
      by rw [rest_append, others_append, hi.ex.others]; rfl⟩
    excl := fun h => by rw [hl]; exact hi.excl (by rw [← hh]; exact h)
    place := fun h => by rw [hc'] at h; cases h
    hold := fun h => by rw [hc'] at h; cases h
    asked := fun h => by rw [hc'] at h; cases h }

theorem go_at (f : FState) (g : Nat) (x : G) : (f.go g x).at_ g = x := by simp [FState.go]
theorem go_far (f : FState) {g g' : Nat} (x : G) (h : g' ≠ g) : (f.go g x).at_ g' = f.at_ g' := by simp [FState.go, h]

theorem own_self (g : Nat) (e : Event) : own g [(some g, e)] = [e] := by simp [own]
theorem own_far {g g' : Nat} (e : Event) (h : g' ≠ g) : own g' [(some g, e)] = [] := by simp [own, Ne.symm h]

theorem Before.now {o : CallOp} {c : List CallOp} {l : List Event} {n : Nat} (h : Before o c l n) : After o c (l ++ [opEvent o]) n := by
  obtain ⟨c', rfl, rfl, rfl⟩ := h
  exact ⟨c', rfl, by simp, rfl⟩

theorem After.back {o : CallOp} {c : List CallOp} {l : List Event} {n : Nat} (h : After o c l n) : l = c.map opEvent ∧ n + 1 = c.length := by
  obtain ⟨c', rfl, rfl, rfl⟩ := h
  exact ⟨rfl, by simp⟩

/-- One event. -/
theorem cinv_step {t : Transport} {h : List FEvent} {f f' : FState} {l : List (Option Nat × Event)} {e : FEvent}
    (hi : CInv t h f l) (hs : fstep t f e = some f') : ∃ l', l' = (takesPlace f e).toList ∧ CInv t (h ++ [e]) f' (l ++ l') := by
  have hcr : f.s.crashed = false := by
    cases hc : f.s.crashed with
    | false => rfl
    | true => simp [fstep, hc] at hs
  unfold fstep at hs
  rw [if_neg (by rw [hcr]; decide)] at hs
  cases e with
  | call g o =>
    have hp := hi.place hcr g
    have hh := hi.hold hcr g
    simp only at hs
    split at hs
    · rename_i m hidle
      simp only [Option.some.injEq] at hs; subst hs
      rw [hidle] at hp hh
      refine ⟨[], by simp [takesPlace, *], cinv_local (g := g) hi hcr ?_ ?_ (by simpa [FState.go] using hi.ex.state) rfl hi.excl ?_ id ?_⟩
      · intro g' hne
        exact ⟨by simp [called, Ne.symm hne], rfl, rfl, go_far _ _ hne, Iff.rfl⟩
      · rw [go_at]
        refine ⟨called g h, by simp [called], ?_, ?_⟩
        · simpa [own] using hp.1
        · simpa [returns] using hp.2
      · rw [go_at]; simpa [inside, FState.go] using hh
      · rw [go_at]; intro h; cases h
    · rename_i hidle
      simp only [Option.some.injEq] at hs; subst hs
      rw [hidle] at hp hh
      refine ⟨[], by simp [takesPlace, *], cinv_local (g := g) hi hcr ?_ ?_ (by simpa [FState.go] using hi.ex.state) rfl hi.excl ?_ id ?_⟩
      · intro g' hne
        exact ⟨by simp [called, Ne.symm hne], rfl, rfl, go_far _ _ hne, Iff.rfl⟩
      · rw [go_at]
        refine ⟨called g h, by simp [called], ?_, ?_⟩
        · simpa [own] using hp.1
        · simpa [returns] using hp.2
      · rw [go_at]; simpa [inside, FState.go] using hh
      · rw [go_at]; intro h; cases h
    · cases hs
  | tau g =>
    have hp := hi.place hcr g
    have hh := hi.hold hcr g
    simp only at hs
    split at hs
    · rename_i m hat
      rw [hat] at hp hh
      split at hs
      · rename_i b hm
        simp only [Option.some.injEq] at hs; subst hs
        refine ⟨[], by simp [takesPlace, *], cinv_local (g := g) hi hcr ?_ ?_ (by simpa [FState.go] using hi.ex.state) rfl hi.excl ?_ id ?_⟩
        · intro g' hne
          exact ⟨rfl, rfl, rfl, go_far _ _ hne, Iff.rfl⟩
        · rw [go_at]
          exact ⟨by simpa [PlaceOk, called, own, returns] using hp, hm⟩
        · rw [go_at]; simpa [inside, FState.go] using hh
        · rw [go_at]; intro h; cases h
      · rename_i e hm
        simp only [Option.some.injEq] at hs; subst hs
        refine ⟨[(some g, .send m)], by simp [takesPlace, *], cinv_local (g := g) hi hcr ?_ ?_ ?_ rfl hi.excl ?_ id ?_⟩
        · intro g' hne
          exact ⟨rfl, rfl, own_far _ hne, go_far _ _ hne, Iff.rfl⟩
        · rw [go_at, own_self]
          exact ⟨by simpa [called, returns, opEvent] using Before.now hp, hm⟩
        · rw [List.map_append]
          exact history_snoc hi.ex.state (by simp [step, hcr, hm, FState.go])
        · rw [go_at]; simpa [inside, FState.go] using hh
        · rw [go_at]; intro h; cases h
      · rename_i hm
        simp only [Option.some.injEq] at hs; subst hs
        exact ⟨_, by simp [takesPlace, opEvent, *], cinv_crash (o := .send m) hi hcr hp (by simp [step, hcr, hm, opEvent]) rfl rfl rfl⟩
      · cases hs
    · rename_i m b hat
      rw [hat] at hp hh
      split at hs
      · cases hs
      · rename_i hfree
        simp only [Option.some.injEq] at hs; subst hs
        have hnone : f.holder = none := by
          cases hf : f.holder with
          | none => rfl
          | some x => exact absurd (Or.inr (by rw [hf]; rfl)) hfree
        refine ⟨[], by simp [takesPlace, *], cinv_local (g := g) hi hcr ?_ ?_ (by simpa [FState.go] using hi.ex.state) rfl ?_ ?_ id ?_⟩
        · intro g' hne
          refine ⟨rfl, rfl, rfl, go_far _ _ hne, ?_⟩
          rw [hnone]
          simp [FState.go, Ne.symm hne]
        · rw [go_at]
          exact ⟨by simpa [called, own, returns] using hp.1, hp.2⟩
        · intro _
          cases hl : f.s.locked with
          | false => exact hl
          | true => exact absurd (Or.inl hl) hfree
        · rw [go_at]; simp [inside, FState.go]
        · rw [go_at]; intro h; cases h
    · rename_i m b hat
      rw [hat] at hp hh
      simp only [Option.some.injEq] at hs; subst hs
      have hin : f.holder = some g := hh.2 rfl
      have hlk : f.s.locked = false := hi.excl (by rw [hin]; rfl)
      refine ⟨[(some g, .send m)], by simp [takesPlace, *], cinv_local (g := g) hi hcr ?_ ?_ ?_ rfl hi.excl ?_ id ?_⟩
      · intro g' hne
        exact ⟨rfl, rfl, own_far _ hne, go_far _ _ hne, Iff.rfl⟩
      · rw [go_at, own_self]
        exact ⟨by simpa [called, returns, opEvent] using Before.now hp.1, b, hp.2⟩
      · rw [List.map_append]
        exact history_snoc hi.ex.state (by simp [step, hcr, hp.2, hlk, FState.go])
      · rw [go_at]; exact ⟨fun _ => rfl, fun _ => hin⟩
      · rw [go_at]; intro h; cases h
    · rename_i m hat
      rw [hat] at hp hh
      simp only [Option.some.injEq] at hs; subst hs
      have hin : f.holder = some g := hh.2 rfl
      refine ⟨[], by simp [takesPlace, *], cinv_local (g := g) hi hcr ?_ ?_ (by simpa [FState.go] using hi.ex.state) rfl ?_ ?_ id ?_⟩
      · intro g' hne
        refine ⟨rfl, rfl, rfl, go_far _ _ hne, ?_⟩
        rw [hin]
        simp [FState.go, Ne.symm hne]
      · rw [go_at]
        exact ⟨by simpa [called, own, returns] using hp.1, hp.2⟩
      · intro h; cases h
      · rw [go_at]; simp [inside, FState.go]
      · rw [go_at]; intro h; cases h
    · rename_i hat
      rw [hat] at hp hh
      split at hs
      · rename_i ha
        simp only [Option.some.injEq] at hs; subst hs
        exact ⟨_, by simp [takesPlace, opEvent, *], cinv_crash (o := .endCall) hi hcr hp (by simp [step, hcr, ha, opEvent]) rfl rfl rfl⟩
      · rename_i ha
        simp only [Option.some.injEq] at hs; subst hs
        refine ⟨[(some g, .endCall)], by simp [takesPlace, *], cinv_local (g := g) hi hcr ?_ ?_ ?_ rfl hi.excl ?_ (fun _ => rfl) (fun _ => rfl)⟩
        · intro g' hne
          exact ⟨rfl, rfl, own_far _ hne, go_far _ _ hne, Iff.rfl⟩
        · rw [go_at, own_self]
          simpa [called, returns, opEvent, PlaceOk] using Before.now hp
        · rw [List.map_append]
          exact history_snoc hi.ex.state (by simp [step, hcr, ha, FState.go])
        · rw [go_at]; simpa [inside, FState.go] using hh
    · cases hs
  | ret g =>
    have hp := hi.place hcr g
    have hh := hi.hold hcr g
    simp only at hs
    split at hs
    · rename_i m e hat
      rw [hat] at hp hh
      simp only [Option.some.injEq] at hs; subst hs
      have hp : After (.send m) (called g h) (own g l) (returns g h) := by cases e <;> exact hp.1
      refine ⟨[], by simp [takesPlace, *], cinv_local (g := g) hi hcr ?_ ?_ (by simpa [FState.go] using hi.ex.state) rfl hi.excl ?_ id ?_⟩
      · intro g' hne
        exact ⟨rfl, by simp [returns, Ne.symm hne], rfl, go_far _ _ hne, Iff.rfl⟩
      · rw [go_at]
        simpa [called, own, returns, PlaceOk] using hp.back
      · rw [go_at]; simpa [inside, FState.go] using hh
      · rw [go_at]; intro h; cases h
    · rename_i hat
      rw [hat] at hp hh
      split at hs
      · simp only [Option.some.injEq] at hs; subst hs
        refine ⟨[], by simp [takesPlace, *], cinv_local (g := g) hi hcr ?_ ?_ (by simpa [FState.go] using hi.ex.state) rfl hi.excl ?_ id ?_⟩
        · intro g' hne
          exact ⟨rfl, by simp [returns, Ne.symm hne], rfl, go_far _ _ hne, Iff.rfl⟩
        · rw [go_at]
          simpa [called, own, returns, PlaceOk] using After.back hp
        · rw [go_at]; simpa [inside, FState.go] using hh
        · rw [go_at]; intro h; cases h
      · cases hs
    · cases hs
  | other e =>
    simp only at hs
    split at hs
    · cases hs
    · cases hs
    · rename_i hns hne
      split at hs
      · cases hs
      · rename_i hlk
        cases hst : step t f.s e with
        | none => rw [hst] at hs; cases hs
        | some s' =>
          rw [hst] at hs
          simp only [Option.map_some, Option.some.injEq] at hs; subst hs
          obtain ⟨hk1, hk2⟩ := other_lock hst (fun m hm => hns m hm) hne
          refine ⟨[(none, e)], rfl, ?_⟩
          have hw : ∀ g', PlaceOk (f.at_ g') (called g' (h ++ [.other e])) (own g' (l ++ [(none, e)])) (returns g' (h ++ [.other e])) := by
            intro g'
            rw [called_append, own_append, returns_append]
            have := hi.place hcr g'
            simpa [called, own, returns] using this
          exact {
            ex := ⟨by rw [List.map_append]; exact history_snoc hi.ex.state hst, fun g' => (hw g').weak.1, fun g' => (hw g').weak.2,
              by rw [rest_append, others_append, hi.ex.others]; rfl⟩
            excl := fun hh => by
              cases hl : s'.locked with
              | false => rfl
              | true =>
                rcases hk1 hl with h1 | h1
                · rw [hi.excl hh] at h1; cases h1
                · exact absurd ⟨h1, hh⟩ hlk
            place := fun _ => hw
            hold := fun _ => hi.hold hcr
            asked := fun _ g' hw => by show s'.endAsked = true; rw [hk2]; exact hi.asked hcr g' hw }

/-- A history after a history. -/
theorem cinv_run {t : Transport} {h h' : List FEvent} {f f' : FState} {l : List (Option Nat × Event)}
    (hi : CInv t h f l) (hr : frun t f h' = some f') : ∃ l', CInv t (h ++ h') f' (l ++ l') := by
  induction h' generalizing h f l with
  | nil =>
    simp only [frun, Option.some.injEq] at hr; subst hr
    exact ⟨[], by simpa using hi⟩
  | cons e r ih =>
    simp only [frun] at hr
    cases hs : fstep t f e with
    | none => rw [hs] at hr; cases hr
    | some f1 =>
      rw [hs] at hr
      obtain ⟨l1, -, h1⟩ := cinv_step hi hs
      obtain ⟨l2, h2⟩ := ih h1 hr
      exact ⟨l1 ++ l2, by simpa using h2⟩

end Syslog5424.Sender
