import Verif.Spec.Recovered
import Verif.Props.Calls
/-! # Property C111: a call that panics and is recovered -/
namespace Syslog5424
open Spec Sender

theorem go_go (f : FState) (g : Nat) (x y : G) : (f.go g x).go g y = f.go g y := by
  unfold FState.go
  simp only [FState.mk.injEq, true_and]
  funext i
  by_cases h : i = g <;> simp [h]

theorem go_same (f : FState) (g : Nat) (x : G) (h : f.at_ g = x) : f.go g x = f := by
  unfold FState.go
  cases f with
  | mk s o a =>
    simp only [FState.mk.injEq, true_and]
    funext i
    by_cases hi : i = g
    · subst hi; simpa using h.symm
    · simp [hi]

theorem go_comm (f : FState) {g g' : Nat} (h : g ≠ g') (x y : G) : (f.go g x).go g' y = (f.go g' y).go g x := by
  unfold FState.go
  simp only [FState.mk.injEq, true_and]
  funext i
  by_cases h1 : i = g
  · subst h1; simp [h]
  · by_cases h2 : i = g'
    · subst h2; simp [h1]
    · simp [h1, h2]

/-- Is this an event of goroutine `g`? -/
def eventOf (g : Nat) : FEvent → Bool
  | .call g' _ => g' == g
  | .tau g' => g' == g
  | .ret g' => g' == g
  | .other _ => false

theorem fstep_go {t : Transport} {f f' : FState} {e : FEvent} {g : Nat} (he : eventOf g e = false) (x : G) (h : fstep t f e = some f') :
    fstep t (f.go g x) e = some (f'.go g x) ∧ f'.at_ g = f.at_ g := by
  have hs : ∀ (f : FState) (x : G), (f.go g x).s = f.s ∧ (f.go g x).holder = f.holder := fun _ _ => ⟨rfl, rfl⟩
  unfold fstep at h ⊢
  rw [(hs f x).1, (hs f x).2]
  split at h
  · simp at h
  rename_i hc
  rw [if_neg hc]
  have hat : ∀ g', g' ≠ g → (f.go g x).at_ g' = f.at_ g' := by
    intro g' hg; simp [FState.go, hg]
  have key : ∀ (g' : Nat) (f1 : FState) (y : G), g' ≠ g → (f1.at_ g = f.at_ g) → ((f1.go g' y).go g x = (f1.go g x).go g' y) ∧ (f1.go g' y).at_ g = f.at_ g := by
    intro g' f1 y hg h1
    refine ⟨(go_comm f1 hg y x), ?_⟩
    simp [FState.go, Ne.symm hg, h1]
  cases e with
  | call g' o =>
    have hg : g' ≠ g := by simpa [eventOf] using he
    simp only [hat g' hg] at h ⊢
    cases hp : f.at_ g' <;> rw [hp] at h <;> cases o <;> simp only [reduceCtorEq, Option.some.injEq] at h ⊢ <;>
      (subst h; exact ⟨((key g' f _ hg rfl).1).symm, (key g' f _ hg rfl).2⟩)
  | tau g' =>
    have hg : g' ≠ g := by simpa [eventOf] using he
    simp only [hat g' hg] at h ⊢
    cases hp : f.at_ g' with
    | marshal m =>
      rw [hp] at h
      simp only at h ⊢
      cases hm : m.marshal with
      | ret r =>
        rw [hm] at h
        cases r <;> simp only [Option.some.injEq] at h ⊢ <;>
          (subst h; exact ⟨((key g' f _ hg rfl).1).symm, (key g' f _ hg rfl).2⟩)
      | panic => rw [hm] at h; simp only [Option.some.injEq] at h ⊢; subst h; exact ⟨rfl, rfl⟩
      | hang => rw [hm] at h; simp at h
    | lock m b =>
      rw [hp] at h
      simp only at h ⊢
      split at h
      · simp at h
      rename_i hl
      rw [if_neg hl]
      simp only [Option.some.injEq] at h ⊢
      subst h
      exact ⟨((key g' { f with holder := some g' } _ hg rfl).1).symm, (key g' { f with holder := some g' } _ hg rfl).2⟩
    | append m b =>
      rw [hp] at h
      simp only [Option.some.injEq] at h ⊢
      subst h
      exact ⟨((key g' { f with s := { f.s with queue := f.s.queue ++ [t.encode b] } } _ hg rfl).1).symm,
        (key g' { f with s := { f.s with queue := f.s.queue ++ [t.encode b] } } _ hg rfl).2⟩
    | unlock m =>
      rw [hp] at h
      simp only [Option.some.injEq] at h ⊢
      subst h
      exact ⟨((key g' { f with holder := none } _ hg rfl).1).symm, (key g' { f with holder := none } _ hg rfl).2⟩
    | close =>
      rw [hp] at h
      simp only at h ⊢
      split at h
      · rename_i ha
        rw [if_pos ha]
        simp only [Option.some.injEq] at h ⊢
        subst h; exact ⟨rfl, rfl⟩
      · rename_i ha
        rw [if_neg ha]
        simp only [Option.some.injEq] at h ⊢
        subst h
        exact ⟨((key g' { f with s := { f.s with endAsked := true } } _ hg rfl).1).symm, (key g' { f with s := { f.s with endAsked := true } } _ hg rfl).2⟩
    | _ => rw [hp] at h; simp at h
  | ret g' =>
    have hg : g' ≠ g := by simpa [eventOf] using he
    simp only [hat g' hg] at h ⊢
    cases hp : f.at_ g' with
    | retSend m e =>
      rw [hp] at h
      simp only [Option.some.injEq] at h ⊢
      subst h
      exact ⟨((key g' f _ hg rfl).1).symm, (key g' f _ hg rfl).2⟩
    | wait =>
      rw [hp] at h
      simp only at h ⊢
      split at h
      · rename_i ha
        rw [if_pos ha]
        simp only [Option.some.injEq] at h ⊢
        subst h
        exact ⟨((key g' f _ hg rfl).1).symm, (key g' f _ hg rfl).2⟩
      · simp at h
    | _ => rw [hp] at h; simp at h
  | other e =>
    have hmap : ∀ (o : Option State), (o.map fun s => { f with s := s }) = some f' →
        (o.map fun s => { (f.go g x) with s := s }) = some (f'.go g x) ∧ f'.at_ g = f.at_ g := by
      intro o ho
      cases o with
      | none => simp at ho
      | some s' =>
        simp only [Option.map_some, Option.some.injEq] at ho ⊢
        subst ho
        exact ⟨rfl, rfl⟩
    cases e <;> simp only at h ⊢ <;> first | (simp at h; done) | skip
    all_goals
      split at h
      · simp at h
      rename_i hl
      rw [if_neg hl]
      exact hmap _ h

/-- A goroutine that has only called can be taken back: the history without this call. -/
theorem uncall {t : Transport} {g : Nat} {h : List FEvent} {f : FState} (hh : FHistory t h f) (hc : f.s.crashed = false) {o : CallOp}
    (hat : f.at_ g = (match o with | .send m => G.marshal m | .endCall => G.close)) :
    ∃ a b, h = a ++ .call g o :: b ∧ FHistory t (a ++ b) (f.go g .idle) := by
  induction h using List.reverseRecOn generalizing f with
  | nil =>
    have : finit = f := Option.some.inj hh
    subst this
    cases o <;> simp [finit] at hat
  | append_singleton h e ih =>
    unfold FHistory at hh
    rw [frun_append] at hh
    obtain ⟨f0, h0, h1⟩ := Option.bind_eq_some_iff.mp hh
    simp only [frun] at h1
    cases h2 : fstep t f0 e with
    | none => rw [h2] at h1; simp at h1
    | some f1 =>
      rw [h2] at h1
      simp only [Option.bind_some, Option.some.injEq] at h1
      subst h1
      by_cases he : eventOf g e = true
      · -- it is the call
        unfold fstep at h2
        split at h2
        · simp at h2
        cases e with
        | call g' o' =>
          have : g' = g := by simpa [eventOf] using he
          subst this
          simp only at h2
          have hp : f0.at_ g' = .idle := by
            cases hp : f0.at_ g' <;> rw [hp] at h2 <;> first | rfl | (exfalso; cases o' <;> simp at h2)
          rw [hp] at h2
          have hidle : ∀ y, (f0.go g' y).go g' .idle = f0 := by
            intro y; rw [go_go, go_same _ _ _ hp]
          cases o' with
          | send m =>
            simp only [Option.some.injEq] at h2
            subst h2
            cases o with
            | send m' =>
              simp [FState.go] at hat
              subst hat
              exact ⟨h, [], rfl, by rw [hidle, List.append_nil]; exact h0⟩
            | endCall => simp [FState.go] at hat
          | endCall =>
            simp only [Option.some.injEq] at h2
            subst h2
            cases o with
            | send m' => simp [FState.go] at hat
            | endCall => exact ⟨h, [], rfl, by rw [hidle, List.append_nil]; exact h0⟩
        | tau g' =>
          have : g' = g := by simpa [eventOf] using he
          subst this
          exfalso
          simp only at h2
          cases hp : f0.at_ g' <;> rw [hp] at h2 <;> simp only at h2 <;> (try split at h2) <;>
            simp only [Option.some.injEq, reduceCtorEq] at h2 <;> subst h2 <;> cases o <;> simp_all [FState.go]
        | ret g' =>
          have : g' = g := by simpa [eventOf] using he
          subst this
          exfalso
          simp only at h2
          cases hp : f0.at_ g' <;> rw [hp] at h2 <;> simp only at h2 <;> (try split at h2) <;>
            simp only [Option.some.injEq, reduceCtorEq] at h2 <;> subst h2 <;> cases o <;> simp_all [FState.go]
        | other e => simp [eventOf] at he
      · have he : eventOf g e = false := by simpa using he
        obtain ⟨k1, k2⟩ := fstep_go he .idle h2
        have hc0 : f0.s.crashed = false := by
          cases hx : f0.s.crashed with
          | false => rfl
          | true => simp [fstep, hx] at h2
        obtain ⟨a, b, rfl, h3⟩ := ih h0 hc0 (by rw [← k2]; exact hat)
        refine ⟨a, b ++ [e], by simp, ?_⟩
        unfold FHistory at h3 ⊢
        rw [← List.append_assoc, frun_append, h3]
        simp only [Option.bind_some, frun, k1]

theorem prun_append {t : Transport} {bad : Bytes → Bool} {f : FState} {a b : List FEvent} :
    prun t bad f (a ++ b) = (prun t bad f a).bind fun f' => prun t bad f' b := by
  induction a generalizing f with
  | nil => rfl
  | cons e r ih =>
    simp only [List.cons_append, prun]
    cases pstep t bad f e with
    | none => rfl
    | some f1 => exact ih

/-- If `End` is under way it was called. -/
theorem end_called {t : Transport} {h : List FEvent} {f : FState} (hh : FHistory t h f) (ha : f.s.endAsked = true) : ∃ g, CallOp.endCall ∈ called g h := by
  induction h using List.reverseRecOn generalizing f with
  | nil =>
    have : finit = f := Option.some.inj hh
    subst this
    simp [finit, init] at ha
  | append_singleton h e ih =>
    unfold FHistory at hh
    rw [frun_append] at hh
    obtain ⟨f0, h0, h1⟩ := Option.bind_eq_some_iff.mp hh
    simp only [frun] at h1
    obtain ⟨f1, h3, h4⟩ := Option.bind_eq_some_iff.mp h1
    simp only [Option.some.injEq] at h4
    subst h4
    cases ha0 : f0.s.endAsked with
    | true =>
      obtain ⟨g, hg⟩ := ih h0 ha0
      exact ⟨g, by rw [called_append]; exact List.mem_append_left _ hg⟩
    | false =>
      have hc : f0.s.crashed = false := by
        cases hx : f0.s.crashed with
        | false => rfl
        | true => simp [fstep, hx] at h3
      have fine : ∀ g x, f1 = f0.go g x → False := by
        intro g x hx
        subst hx
        have : (f0.go g x).s = f0.s := rfl
        rw [this, ha0] at ha
        cases ha
      unfold fstep at h3
      rw [if_neg (by simp [hc])] at h3
      cases e with
      | call g o =>
        simp only at h3
        split at h3
        · exact (fine _ _ (Option.some.inj h3).symm).elim
        · exact (fine _ _ (Option.some.inj h3).symm).elim
        · cases h3
      | ret g =>
        simp only at h3
        split at h3
        · exact (fine _ _ (Option.some.inj h3).symm).elim
        · split at h3
          · exact (fine _ _ (Option.some.inj h3).symm).elim
          · cases h3
        · cases h3
      | other e =>
        exfalso
        simp only at h3
        split at h3
        · cases h3
        · cases h3
        · next hne =>
          split at h3
          · cases h3
          · obtain ⟨s, k1, k2⟩ := Option.map_eq_some_iff.mp h3
            subst k2
            have hs : run t f0.s [e] = some s := by simp [run, k1]
            obtain ⟨_, htr⟩ := step_tr k1
            simp only at ha
            cases htr <;> simp_all
      | tau g =>
        simp only at h3
        cases hp : f0.at_ g with
        | close =>
          obtain ⟨l, hl⟩ := cinv_run (cinv_init t) h0
          have hpl := hl.place hc g
          rw [hp] at hpl
          obtain ⟨c', k, _⟩ := hpl
          rw [List.nil_append] at k
          exact ⟨g, by rw [called_append, k]; simp⟩
        | _ =>
          exfalso
          rw [hp] at h3
          simp only at h3
          repeat' split at h3
          all_goals first
            | cases h3; done
            | exact fine _ _ (Option.some.inj h3).symm
            | (simp only [Option.some.injEq] at h3; subst h3; simp [FState.go, ha0] at ha)

/-- A call with no accepted message, taken out. -/
theorem withoutPanics_uncall {g : Nat} {o : CallOp} (ho : acceptedSend (opEvent o) = none) (hn : neverPanics o = false) (h a b : List FEvent)
    (hw : WithoutPanics h (a ++ .call g o :: b)) (hend : o = .endCall → ∃ g, CallOp.endCall ∈ called g (a ++ b)) : WithoutPanics (h ++ [.tau g]) (a ++ b) where
  sub := by
    refine List.Sublist.trans ?_ (List.Sublist.trans hw.sub (List.sublist_append_left _ _))
    exact List.Sublist.append_left (List.sublist_cons_self _ _) a
  accepted g' := by
    have := hw.accepted g'
    rw [called_append] at this ⊢
    rw [called_append, show called g' [FEvent.tau g] = [] from rfl, List.append_nil, ← this]
    simp only [called]
    split
    · simp only [Spec.accepted, List.filterMap_append, List.filterMap_cons, ho]
    · rfl
  calls g' := by
    have := hw.calls g'
    rw [called_append] at this ⊢
    rw [called_append, show called g' [FEvent.tau g] = [] from rfl, List.append_nil]
    refine List.Sublist.trans ?_ this
    simp only [called]
    split
    · exact List.Sublist.append_left (List.sublist_cons_self _ _) _
    · exact List.Sublist.refl _
  returns g' := by
    have := hw.returns g'
    rw [returns_append] at this ⊢
    rw [returns_append, ← this]
    simp [Spec.returns]
  others := by
    have := hw.others
    rw [others_append] at this ⊢
    rw [others_append, ← this]
    simp [Spec.others]
  sends g' := by
    have := hw.sends g'
    rw [called_append] at this ⊢
    rw [called_append, show called g' [FEvent.tau g] = [] from rfl, List.append_nil, ← this]
    simp only [called]
    split
    · simp only [List.filter_append, List.filter_cons, hn, Bool.false_eq_true, if_false]
    · rfl
  ends := by
    rintro ⟨g', hg'⟩
    rw [called_append, show called g' [FEvent.tau g] = [] from rfl, List.append_nil] at hg'
    cases o with
    | endCall => exact hend rfl
    | send m =>
      obtain ⟨g2, hg2⟩ := hw.ends ⟨g', hg'⟩
      refine ⟨g2, ?_⟩
      rw [called_append] at hg2 ⊢
      simp only [called] at hg2
      split at hg2 <;> simpa using hg2

theorem withoutPanics_snoc {h h' : List FEvent} (hw : WithoutPanics h h') (e : FEvent) : WithoutPanics (h ++ [e]) (h' ++ [e]) where
  sub := List.Sublist.append_right hw.sub _
  accepted g := by
    have := hw.accepted g
    unfold Spec.accepted at this ⊢
    rw [called_append, called_append, List.filterMap_append, List.filterMap_append, this]
  calls g := by
    rw [called_append, called_append]
    exact List.Sublist.append_right (hw.calls g) _
  returns g := by rw [returns_append, returns_append, hw.returns g]
  others := by rw [others_append, others_append, hw.others]
  sends g := by rw [called_append, called_append, List.filter_append, List.filter_append, hw.sends g]
  ends := by
    rintro ⟨g, hg⟩
    rw [called_append] at hg
    rcases List.mem_append.mp hg with hg | hg
    · obtain ⟨g', hg'⟩ := hw.ends ⟨g, hg⟩
      exact ⟨g', by rw [called_append]; exact List.mem_append_left _ hg'⟩
    · exact ⟨g, by rw [called_append]; exact List.mem_append_right _ hg⟩

/-- **C111 (partial).** With a transport of the package, calls of `Send` and `End` that panic and are recovered change nothing: the
sender and all its callers are as if these calls had not been made. So all theorems about `Send` and `End` (C92, C98, C104) apply to what is left.
Missing: transports of the user that panic in `Encode`, see `C111_encode_violated`. -/
theorem C111_no_effect_partial (t : Transport) (h : List FEvent) (f : FState) (h1 : PHistory t never h f) :
    ∃ h', FHistory t h' f ∧ WithoutPanics h h' := by
  induction h using List.reverseRecOn generalizing f with
  | nil =>
    exact ⟨[], h1, ⟨List.Sublist.refl _, fun _ => rfl, fun _ => List.Sublist.refl _, fun _ => rfl, rfl, fun _ => rfl, id⟩⟩
  | append_singleton h e ih =>
    unfold PHistory at h1
    rw [prun_append] at h1
    obtain ⟨f0, h0, h2⟩ := Option.bind_eq_some_iff.mp h1
    simp only [prun] at h2
    obtain ⟨f1, h3, h4⟩ := Option.bind_eq_some_iff.mp h2
    simp only [Option.some.injEq] at h4
    subst h4
    obtain ⟨h', g1, g2⟩ := ih f0 h0
    have hc : f0.s.crashed = false := by
      cases hx : f0.s.crashed with
      | false => rfl
      | true => simp [pstep, hx] at h3
    have usual : fstep t f0 e = some f1 → ∃ h', FHistory t h' f1 ∧ WithoutPanics (h ++ [e]) h' := by
      intro hs
      refine ⟨h' ++ [e], ?_, withoutPanics_snoc g2 e⟩
      unfold FHistory at g1 ⊢
      rw [frun_append, g1]
      simp [frun, hs]
    unfold pstep at h3
    rw [if_neg (by simp [hc])] at h3
    cases e with
    | tau g =>
      simp only at h3
      cases hp : f0.at_ g with
      | marshal m =>
        rw [hp] at h3
        simp only at h3
        cases hm : m.marshal with
        | panic =>
          rw [hm] at h3
          simp only [Option.some.injEq] at h3
          subst h3
          obtain ⟨a, b, rfl, k⟩ := uncall g1 hc (o := .send m) hp
          exact ⟨a ++ b, k, withoutPanics_uncall (by simp [opEvent, acceptedSend, hm]) (by simp [neverPanics, hm]) h a b g2 (by simp)⟩
        | ret r => rw [hm] at h3; exact usual h3
        | hang => rw [hm] at h3; exact usual h3
      | append m b => rw [hp] at h3; exact usual h3
      | close =>
        rw [hp] at h3
        simp only at h3
        split at h3
        · next hasked =>
          simp only [Option.some.injEq] at h3
          subst h3
          obtain ⟨a, b, rfl, k⟩ := uncall g1 hc (o := .endCall) hp
          exact ⟨a ++ b, k, withoutPanics_uncall rfl rfl h a b g2 (fun _ => end_called k hasked)⟩
        · exact usual h3
      | _ => rw [hp] at h3; exact usual h3
    | _ => exact usual h3

/-- **C111 (partial).** What is written and what waits are the messages that were accepted, those of each goroutine in the order of its
calls; a goroutine that is inside no call has all of them there, also when calls before panicked. -/
theorem C111_written_partial (t : Transport) (h : List FEvent) (f : FState) (h1 : PHistory t never h f) (hc : f.s.crashed = false) :
    ∃ a : List (Nat × Message), writtenAndWaiting f.s = (a.map fun x => frameOf t x.2).flatten ∧
      (∀ g, ofGoroutine g a <+: accepted (called g h)) ∧
      (∀ g, f.at_ g = .idle → ofGoroutine g a = accepted (called g h)) := by
  obtain ⟨h', k1, k2⟩ := C111_no_effect_partial t h f h1
  obtain ⟨a, b, a1, -, a3, -⟩ := C92_order t h' [] f f k1 rfl
  refine ⟨a, a3, fun g => ?_, fun g hg => ?_⟩
  · rw [← k2.accepted g]; exact (a1 g).2
  · rw [← k2.accepted g]
    obtain ⟨l, hl⟩ := cinv_run (cinv_init t) k1
    have := hl.place hc g
    rw [hg] at this
    obtain ⟨p1, p2⟩ := this
    simp only [List.nil_append] at p1 p2
    have hall : (called g h').take (Spec.returns g h') = called g h' := by
      apply List.take_of_length_le
      omega
    have h2 := (a1 g).1
    rw [hall] at h2
    exact ((a1 g).2).eq_of_length_le h2.length_le

/-! ## `Encode` panics with the lock -/

/-- Does the goroutine of the sender hold the lock here? -/
def lockedAt : PC → Bool
  | .loop _ => true
  | .write _ _ _ => true
  | .errWrite _ _ => true
  | .unlock _ => true
  | _ => false

/-- What always holds. -/
structure PInv (f : FState) : Prop where
  lock : f.s.crashed = false → f.s.locked = lockedAt f.s.pc
  excl : f.holder.isSome → f.s.locked = false
  ins : ∀ g, inside (f.at_ g) = true → f.holder = some g

@[simp] theorem lockedAt_ret (fin : Bool) : lockedAt (ret fin) = false := by cases fin <;> rfl

theorem step_lockedAt {t : Transport} {s s' : State} {e : Event} (h : step t s e = some s') (hl : s.locked = lockedAt s.pc) :
    (s'.crashed = false → s'.locked = lockedAt s'.pc) ∧ (s.locked = false → takesLock s.pc e = false → s'.locked = false) := by
  unfold step at h
  split at h
  · simp at h
  split at h <;> (repeat' split at h) <;> simp only [Option.some.injEq, reduceCtorEq] at h <;> subst h <;>
    first
      | (simp_all [lockedAt, takesLock]; done)
      | (refine ⟨fun _ => ?_, fun _ _ => ?_⟩ <;> simp_all [lockedAt, takesLock]; done)
      | (rename_i heq _; simp only [heq, lockedAt] at hl; exact ⟨fun _ => by rw [lockedAt_ret]; exact hl, fun _ _ => hl⟩)
      | (exact ⟨fun _ => by rw [lockedAt_ret], fun _ _ => rfl⟩)
      | skip


/-- The lock is held by a goroutine that left `Send`, and the queue will never change. -/
structure Poisoned (g : Nat) (f : FState) : Prop where
  held : f.holder = some g
  out : ∀ g', inside (f.at_ g') = false
  free : f.s.locked = false
  pc : f.s.crashed = false → lockedAt f.s.pc = false

theorem step_poisoned {t : Transport} {s s' : State} {e : Event} (h : step t s e = some s') (hl : s.locked = false) (hpc : lockedAt s.pc = false)
    (hs : ∀ m, e ≠ .send m) (ht : takesLock s.pc e = false) :
    s'.queue = s.queue ∧ wire s' = wire s ∧ (s'.crashed = false → lockedAt s'.pc = false) ∧ s'.locked = false ∧
      (s.queue ≠ [] → closing s.pc = false → s.endCompleted = false → closing s'.pc = false ∧ s'.endCompleted = false) := by
  obtain ⟨k1, k2⟩ := step_lockedAt h (by rw [hl, hpc])
  have k3 := k2 hl ht
  refine ⟨?_, ?_, fun hc => by rw [← k1 hc]; exact k3, k3, ?_⟩
  all_goals
    unfold step at h
    split at h
    · simp at h
    split at h <;> (repeat' split at h) <;> simp only [Option.some.injEq, reduceCtorEq] at h <;> first | subst h | skip
  all_goals first
    | rfl
    | (exact absurd rfl (hs _); done)
    | (exact wireOf_new _)
    | (exact wireOf_closeLast _)
    | (simp_all [lockedAt]; done)
    | (intro a b c; simp_all [closing, lockedAt]; done)
    | (intro a b c; refine ⟨?_, c⟩; rename_i fin _ _ _; cases fin <;> rfl)
    | skip

/-- An event of `Send` or `End` that is not a panic, or another event. -/
theorem pstep_cases {t : Transport} {bad : Bytes → Bool} {f f' : FState} {e : FEvent} (h : pstep t bad f e = some f') :
    f.s.crashed = false ∧ (fstep t f e = some f' ∨ ∃ g, e = .tau g ∧ f' = f.go g .idle) := by
  unfold pstep at h
  split at h
  · simp at h
  rename_i hc
  refine ⟨by simpa using hc, ?_⟩
  split at h
  · rename_i g
    split at h
    · split at h
      · exact Or.inr ⟨g, rfl, (Option.some.inj h).symm⟩
      · exact Or.inl h
    · split at h
      · exact Or.inr ⟨g, rfl, (Option.some.inj h).symm⟩
      · exact Or.inl h
    · split at h
      · exact Or.inr ⟨g, rfl, (Option.some.inj h).symm⟩
      · exact Or.inl h
    · exact Or.inl h
  · exact Or.inl h

theorem inside_go {f : FState} {g g' : Nat} {x : G} (hx : inside x = false) (h : inside (f.at_ g') = false) : inside ((f.go g x).at_ g') = false := by
  unfold FState.go
  by_cases hg : g' = g <;> simp [hg, hx]
  exact h

theorem poisoned_step {t : Transport} {bad : Bytes → Bool} {g : Nat} {f f' : FState} {e : FEvent} (hp : Poisoned g f)
    (h : pstep t bad f e = some f') :
    Poisoned g f' ∧ f'.s.queue = f.s.queue ∧ wire f'.s = wire f.s ∧
      (f.s.queue ≠ [] → closing f.s.pc = false → f.s.endCompleted = false → closing f'.s.pc = false ∧ f'.s.endCompleted = false) ∧
      (∀ g' m, f'.at_ g' = .retSend m none → f.at_ g' = .retSend m none) := by
  obtain ⟨hc, h | ⟨g', rfl, rfl⟩⟩ := pstep_cases h
  · have goes : ∀ (f1 : FState) (g' : Nat) (x : G), f1.s = f.s → f1.holder = f.holder → f1.at_ = f.at_ → inside x = false → (∀ m, x ≠ .retSend m none) →
        Poisoned g (f1.go g' x) ∧ (f1.go g' x).s.queue = f.s.queue ∧ wire (f1.go g' x).s = wire f.s ∧
        (f.s.queue ≠ [] → closing f.s.pc = false → f.s.endCompleted = false → closing (f1.go g' x).s.pc = false ∧ (f1.go g' x).s.endCompleted = false) ∧
        (∀ g'' m, (f1.go g' x).at_ g'' = .retSend m none → f.at_ g'' = .retSend m none) := by
      intro f1 g' x e1 e2 e3 hx hr
      have e1' : (f1.go g' x).s = f.s := e1
      refine ⟨⟨by rw [← hp.held, ← e2]; rfl, fun g'' => inside_go hx (by rw [e3]; exact hp.out g''), by rw [e1']; exact hp.free,
        by rw [e1']; exact hp.pc⟩, by rw [e1'], by rw [e1'], by rw [e1']; exact fun _ b c => ⟨b, c⟩, ?_⟩
      intro g'' m hg
      unfold FState.go at hg
      simp only at hg
      split at hg
      · exact absurd hg (hr m)
      · rw [e3] at hg; exact hg
    unfold fstep at h
    rw [if_neg (by simp [hc])] at h
    cases e with
    | call g' o =>
      simp only at h
      cases hq : f.at_ g' <;> rw [hq] at h <;> cases o <;> simp only [reduceCtorEq, Option.some.injEq] at h <;> subst h <;>
        exact goes f _ _ rfl rfl rfl rfl (by simp)
    | tau g' =>
      simp only at h
      cases hq : f.at_ g' with
      | marshal m =>
        rw [hq] at h
        simp only at h
        cases hm : m.marshal with
        | ret r =>
          rw [hm] at h
          cases r <;> simp only [Option.some.injEq] at h <;> subst h <;> exact goes f _ _ rfl rfl rfl rfl (by simp)
        | panic =>
          rw [hm] at h
          simp only [Option.some.injEq] at h
          subst h
          exact ⟨⟨hp.held, hp.out, hp.free, by simp⟩, rfl, rfl, fun _ b c => ⟨b, c⟩, fun _ _ h => h⟩
        | hang => rw [hm] at h; simp at h
      | lock m b => rw [hq] at h; simp [hp.held] at h
      | append m b => have := hp.out g'; rw [hq] at this; simp [inside] at this
      | unlock m => have := hp.out g'; rw [hq] at this; simp [inside] at this
      | close =>
        rw [hq] at h
        simp only at h
        split at h
        · simp only [Option.some.injEq] at h
          subst h
          exact ⟨⟨hp.held, hp.out, hp.free, by simp⟩, rfl, rfl, fun _ b c => ⟨b, c⟩, fun _ _ h => h⟩
        · simp only [Option.some.injEq] at h
          subst h
          refine ⟨⟨hp.held, fun g'' => inside_go rfl (hp.out g''), hp.free, hp.pc⟩, rfl, rfl, fun _ b c => ⟨b, c⟩, ?_⟩
          intro g'' m hg
          unfold FState.go at hg
          simp only at hg
          split at hg
          · cases hg
          · exact hg
      | _ => rw [hq] at h; simp at h
    | ret g' =>
      simp only at h
      cases hq : f.at_ g' with
      | retSend m x =>
        rw [hq] at h
        simp only [Option.some.injEq] at h
        subst h
        exact goes f _ _ rfl rfl rfl rfl (by simp)
      | wait =>
        rw [hq] at h
        simp only at h
        split at h
        · simp only [Option.some.injEq] at h
          subst h
          exact goes f _ _ rfl rfl rfl rfl (by simp)
        · simp at h
      | _ => rw [hq] at h; simp at h
    | other e =>
      have key : (∀ m, e ≠ .send m) → ¬(takesLock f.s.pc e = true ∧ f.holder.isSome = true) → ((step t f.s e).map fun s => { f with s := s }) = some f' →
          Poisoned g f' ∧ f'.s.queue = f.s.queue ∧ wire f'.s = wire f.s ∧
          (f.s.queue ≠ [] → closing f.s.pc = false → f.s.endCompleted = false → closing f'.s.pc = false ∧ f'.s.endCompleted = false) ∧
          (∀ g' m, f'.at_ g' = .retSend m none → f.at_ g' = .retSend m none) := by
        intro hs hl hm
        obtain ⟨s', hs', rfl⟩ := Option.map_eq_some_iff.mp hm
        have ht : takesLock f.s.pc e = false := by
          cases hx : takesLock f.s.pc e with
          | false => rfl
          | true => exact absurd ⟨hx, by rw [hp.held]; rfl⟩ hl
        obtain ⟨k1, k2, k3, k4, k5⟩ := step_poisoned hs' hp.free (hp.pc hc) hs ht
        exact ⟨⟨hp.held, hp.out, k4, k3⟩, k1, k2, k5, fun _ _ h => h⟩
      cases e <;> simp only at h <;> first | (simp at h; done) | skip
      all_goals
        split at h
        · simp at h
        rename_i hl
        exact key (by simp) hl h
  · refine ⟨⟨hp.held, fun g'' => inside_go rfl (hp.out g''), hp.free, hp.pc⟩, rfl, rfl, fun _ b c => ⟨b, c⟩, ?_⟩
    intro g'' m hg
    unfold FState.go at hg
    simp only at hg
    split at hg
    · cases hg
    · exact hg

theorem pinv_step {t : Transport} {bad : Bytes → Bool} {f f' : FState} {e : FEvent} (hp : PInv f) (h : pstep t bad f e = some f') : PInv f' := by
  -- a goroutine goes to a place outside, everything else is the same
  have goes : ∀ (g' : Nat) (x : G), inside x = false → PInv (f.go g' x) := by
    intro g' x hx
    refine ⟨hp.lock, hp.excl, ?_⟩
    intro g hg
    by_cases hgg : g = g'
    · subst hgg; simp [FState.go, hx] at hg
    · exact hp.ins g (by simpa [FState.go, hgg] using hg)
  obtain ⟨hc, h | ⟨g', rfl, rfl⟩⟩ := pstep_cases h
  · unfold fstep at h
    rw [if_neg (by simp [hc])] at h
    cases e with
    | call g' o =>
      simp only at h
      cases hq : f.at_ g' <;> rw [hq] at h <;> cases o <;> simp only [reduceCtorEq, Option.some.injEq] at h <;> subst h <;> exact goes _ _ rfl
    | tau g' =>
      simp only at h
      cases hq : f.at_ g' with
      | marshal m =>
        rw [hq] at h
        simp only at h
        cases hm : m.marshal with
        | ret r =>
          rw [hm] at h
          cases r <;> simp only [Option.some.injEq] at h <;> subst h <;> exact goes _ _ rfl
        | panic =>
          rw [hm] at h
          simp only [Option.some.injEq] at h
          subst h
          exact ⟨by simp, hp.excl, hp.ins⟩
        | hang => rw [hm] at h; simp at h
      | lock m b =>
        rw [hq] at h
        simp only at h
        split at h
        · simp at h
        rename_i hl
        simp only [Option.some.injEq] at h
        subst h
        have hl1 : f.s.locked = false := by
          cases hx : f.s.locked with
          | false => rfl
          | true => exact absurd (Or.inl hx) hl
        have hl2 : f.holder = none := by
          cases hx : f.holder with
          | none => rfl
          | some _ => exact absurd (Or.inr (by rw [hx]; rfl)) hl
        refine ⟨hp.lock, fun _ => hl1, ?_⟩
        intro g hg
        by_cases hgg : g = g'
        · subst hgg; rfl
        · have := hp.ins g (by simpa [FState.go, hgg] using hg)
          rw [hl2] at this; cases this
      | append m b =>
        rw [hq] at h
        simp only [Option.some.injEq] at h
        subst h
        refine ⟨hp.lock, hp.excl, ?_⟩
        intro g hg
        by_cases hgg : g = g'
        · subst hgg; exact hp.ins g (by rw [hq]; rfl)
        · exact hp.ins g (by simpa [FState.go, hgg] using hg)
      | unlock m =>
        rw [hq] at h
        simp only [Option.some.injEq] at h
        subst h
        have hh := hp.ins g' (by rw [hq]; rfl)
        refine ⟨hp.lock, by simp [FState.go], ?_⟩
        intro g hg
        by_cases hgg : g = g'
        · subst hgg; simp [FState.go, inside] at hg
        · have := hp.ins g (by simpa [FState.go, hgg] using hg)
          rw [hh] at this
          exact absurd (Option.some.inj this).symm hgg
      | close =>
        rw [hq] at h
        simp only at h
        split at h
        · simp only [Option.some.injEq] at h
          subst h
          exact ⟨by simp, hp.excl, hp.ins⟩
        · simp only [Option.some.injEq] at h
          subst h
          have := goes g' .wait rfl
          exact ⟨this.lock, this.excl, this.ins⟩
      | _ => rw [hq] at h; simp at h
    | ret g' =>
      simp only at h
      cases hq : f.at_ g' with
      | retSend m x =>
        rw [hq] at h
        simp only [Option.some.injEq] at h
        subst h
        exact goes _ _ rfl
      | wait =>
        rw [hq] at h
        simp only at h
        split at h
        · simp only [Option.some.injEq] at h
          subst h
          exact goes _ _ rfl
        · simp at h
      | _ => rw [hq] at h; simp at h
    | other e =>
      have key : ¬(takesLock f.s.pc e = true ∧ f.holder.isSome = true) → ((step t f.s e).map fun s => { f with s := s }) = some f' → PInv f' := by
        intro hl hm
        obtain ⟨s', hs', rfl⟩ := Option.map_eq_some_iff.mp hm
        obtain ⟨k1, k2⟩ := step_lockedAt hs' (hp.lock hc)
        refine ⟨k1, fun hh => k2 (hp.excl hh) ?_, hp.ins⟩
        cases hx : takesLock f.s.pc e with
        | false => rfl
        | true => exact absurd ⟨hx, hh⟩ hl
      cases e <;> simp only at h <;> first | (simp at h; done) | skip
      all_goals
        split at h
        · simp at h
        rename_i hl
        exact key hl h
  · exact goes _ _ rfl

theorem pinv_run {t : Transport} {bad : Bytes → Bool} {h : List FEvent} {f f' : FState} (hp : PInv f) (hr : prun t bad f h = some f') : PInv f' := by
  induction h generalizing f with
  | nil => simp only [prun, Option.some.injEq] at hr; subst hr; exact hp
  | cons e r ih =>
    obtain ⟨f1, h1, h2⟩ := Option.bind_eq_some_iff.mp hr
    exact ih (pinv_step hp h1) h2

/-- **C111 fails** for a transport of the user whose `Encode` panics: `Send` panics with the lock and does not release it. When the
panic is recovered the program goes on, but whatever happens from then on nothing is written any more, nothing is queued, no
call of `Send` that had not got its message into the queue ever succeeds, and if something waits to be written `End` never completes. -/
theorem C111_encode_violated (t : Transport) (bad : Bytes → Bool) (h h' : List FEvent) (f f1 f2 : FState) (h1 : PHistory t bad h f)
    (g : Nat) (m : Message) (b : Bytes) (hat : f.at_ g = .append m b) (hbad : bad b = true) (hs : pstep t bad f (.tau g) = some f1)
    (h2 : prun t bad f1 h' = some f2) :
    f2.s.queue = f.s.queue ∧ wire f2.s = wire f.s ∧
    (∀ g' m', f2.at_ g' = .retSend m' none → f.at_ g' = .retSend m' none) ∧
    (f.s.queue ≠ [] → closing f.s.pc = false → f.s.endCompleted = false → f2.s.endCompleted = false) := by
  have hi : PInv f := pinv_run (f := finit) ⟨fun _ => rfl, by simp [finit], by simp [finit, inside]⟩ h1
  have hc := (pstep_cases hs).1
  have e1 : f1 = f.go g .idle := by
    simp only [pstep, hc, hat, hbad] at hs
    simpa using hs.symm
  have hh := hi.ins g (by rw [hat]; rfl)
  have hl := hi.excl (by rw [hh]; rfl)
  have hpo : Poisoned g f1 := by
    subst e1
    refine ⟨hh, ?_, hl, fun _ => by show lockedAt f.s.pc = false; rw [← hi.lock hc]; exact hl⟩
    intro g'
    by_cases hg : g' = g
    · subst hg; simp [FState.go, inside]
    · cases hx : inside ((f.go g .idle).at_ g') with
      | false => rfl
      | true =>
        have := hi.ins g' (by simpa [FState.go, hg] using hx)
        rw [hh] at this
        exact absurd (Option.some.inj this).symm hg
  have key : ∀ (h' : List FEvent) (f1 : FState), Poisoned g f1 → prun t bad f1 h' = some f2 →
      f2.s.queue = f1.s.queue ∧ wire f2.s = wire f1.s ∧ (∀ g' m', f2.at_ g' = .retSend m' none → f1.at_ g' = .retSend m' none) ∧
      (f1.s.queue ≠ [] → closing f1.s.pc = false → f1.s.endCompleted = false → f2.s.endCompleted = false) := by
    intro h'
    induction h' with
    | nil =>
      intro f1 _ hr
      simp only [prun, Option.some.injEq] at hr
      subst hr
      exact ⟨rfl, rfl, fun _ _ h => h, fun _ _ h => h⟩
    | cons e r ih =>
      intro f1 hp hr
      obtain ⟨f3, h3, h4⟩ := Option.bind_eq_some_iff.mp hr
      obtain ⟨a1, a2, a3, a4, a5⟩ := poisoned_step hp h3
      obtain ⟨b1, b2, b3, b4⟩ := ih f3 a1 h4
      refine ⟨by rw [b1, a2], by rw [b2, a3], fun g' m' h => a5 g' m' (b3 g' m' h), fun q c d => ?_⟩
      obtain ⟨c1, c2⟩ := a4 q c d
      exact b4 (by rw [a2]; exact q) c1 c2
  obtain ⟨k1, k2, k3, k4⟩ := key h' f1 hpo h2
  subst e1
  refine ⟨k1, k2, fun g' m' hg => ?_, k4⟩
  have := k3 g' m' hg
  unfold FState.go at this
  simp only at this
  split at this
  · cases this
  · exact this

/-! ## Concrete cases -/

/-- A message whose marshalling panics (C23), and one that can be sent. -/
def panicking : Message := Message.empty.addSD [.tq ⟨true, true, some 0⟩]
def harmless : Message := { Message.empty with message := b!"hello" }

/-- Goroutine 0 sends a message that panics, and then another one; goroutine 1 calls `End` twice. -/
def recoveredHistory : List FEvent :=
  [.call 0 (.send panicking), .call 1 (.send harmless), .tau 0, .tau 1, .call 0 (.send harmless), .tau 1, .tau 0, .tau 1, .tau 1, .ret 1,
    .tau 0, .tau 0, .tau 0, .ret 0, .call 1 .endCall, .tau 1, .call 0 .endCall, .tau 0]

example : (prun .lfEnded never finit recoveredHistory).map (fun f => (f.s.queue.length, f.s.crashed, f.s.endAsked, f.holder)) = some (2, false, true, none) ∧
    (frun .lfEnded finit recoveredHistory).isNone = true := by decide +kernel

/-- With a nil transport the first message blocks the sender: goroutine 0 recovers, goroutine 1 waits for the lock, and so does the
goroutine of the sender at the next tick. -/
def nilTransport : Bytes → Bool := fun _ => true

example : (prun .lfEnded nilTransport finit [.call 0 (.send harmless), .tau 0, .tau 0]).map (fun f => f.holder) = some (some 0) ∧
    (prun .lfEnded nilTransport finit [.call 0 (.send harmless), .tau 0, .tau 0, .tau 0, .call 1 (.send harmless), .tau 1,
      .other .tick, .other .tau, .other (.connect none)]).map (fun f => (f.holder, f.s.pc)) = some (some 0, .lock false) := by decide +kernel

/-- A transport that refuses long messages by a panic: one message is in the queue, the next one blocks `End`. -/
def refusesLong : Bytes → Bool := fun b => decide (60 < b.length)
def longMessage : Message := { Message.empty with message := List.replicate 40 97 }

example : (prun .lfEnded refusesLong finit [.call 0 (.send harmless), .tau 0, .tau 0, .tau 0, .tau 0, .ret 0, .call 0 (.send longMessage), .tau 0, .tau 0]).map
      (fun f => (f.s.queue.length, closing f.s.pc, f.s.endCompleted, f.holder)) = some (1, false, false, some 0) ∧
    (∃ b, longMessage.marshal = .ret (.ok b) ∧ refusesLong b = true) := by
  refine ⟨by decide +kernel, ?_⟩
  cases h : longMessage.marshal with
  | ret r => cases r with
    | ok b => exact ⟨b, rfl, by
        have : (match longMessage.marshal with | .ret (.ok b) => refusesLong b | _ => false) = true := by decide +kernel
        rw [h] at this; exact this⟩
    | error e =>
      have : (match longMessage.marshal with | .ret (.ok _) => true | _ => false) = true := by decide +kernel
      rw [h] at this; cases this
  | panic =>
    have : (match longMessage.marshal with | .ret (.ok _) => true | _ => false) = true := by decide +kernel
    rw [h] at this; cases this
  | hang =>
    have : (match longMessage.marshal with | .ret (.ok _) => true | _ => false) = true := by decide +kernel
    rw [h] at this; cases this

end Syslog5424
