import Verif.Lemmas.Sender
import Verif.Spec.Race
/-! # Lemmas: operations of a history and the lock of a sender -/
namespace Syslog5424.Sender
open Spec

/-- The state after the first `n` events. -/
def At (t : Transport) (es : List (Nat × Event)) (n : Nat) (s : State) : Prop := run t init ((es.take n).map Prod.snd) = some s

theorem ops_get {t : Transport} {s0 s1 : State} {es : List (Nat × Event)} (h : run t s0 (es.map Prod.snd) = some s1) {i : Nat} {a : Op}
    (ha : (ops t s0 es)[i]? = some a) :
    ∃ s s' g e, run t s0 ((es.take i).map Prod.snd) = some s ∧ es[i]? = some (g, e) ∧ a = opOf s g e ∧ step t s e = some s' ∧
      run t s0 ((es.take (i + 1)).map Prod.snd) = some s' := by
  induction es generalizing s0 i with
  | nil => simp [ops] at ha
  | cons x r ih =>
    obtain ⟨g, e⟩ := x
    simp only [List.map_cons, run] at h
    cases hst : step t s0 e with
    | none => rw [hst] at h; simp at h
    | some s' =>
      rw [hst] at h
      simp only [ops, hst] at ha
      cases i with
      | zero =>
        simp only [List.getElem?_cons_zero, Option.some.injEq] at ha
        exact ⟨s0, s', g, e, rfl, rfl, ha.symm, hst, by simp [run, hst]⟩
      | succ i =>
        simp only [List.getElem?_cons_succ] at ha
        obtain ⟨s, s'', g', e', h1, h2, h3, h4, h5⟩ := ih h ha
        refine ⟨s, s'', g', e', ?_, by simpa using h2, h3, h4, ?_⟩
        · simp only [List.take_succ_cons, List.map_cons, run, hst]; exact h1
        · simp only [List.take_succ_cons, List.map_cons, run, hst]; exact h5

theorem ops_length {t : Transport} {s0 s1 : State} {es : List (Nat × Event)} (h : run t s0 (es.map Prod.snd) = some s1) :
    (ops t s0 es).length = es.length := by
  induction es generalizing s0 with
  | nil => simp [ops]
  | cons x r ih =>
    obtain ⟨g, e⟩ := x
    simp only [List.map_cons, run] at h
    cases hst : step t s0 e with
    | none => rw [hst] at h; simp at h
    | some s' => rw [hst] at h; simp [ops, hst, ih h]

theorem HB_lt {os : List Op} {sync : Nat → Nat → Prop} {i j : Nat} (h : HappensBefore os sync i j) : i < j := by
  induction h with
  | program h => exact h
  | mutex h => exact h
  | close h => exact h
  | user h => exact h
  | trans _ _ h1 h2 => omega

/-- What an operation that touches the queue is. -/
theorem op_cases {t : Transport} {fr : List Bytes} {s s' : State} {g : Nat} {e : Event} (hi : Inv fr s) (hs : step t s e = some s')
    (h : (opOf s g e).reads = true ∨ (opOf s g e).writes = true) :
    (opOf s g e = { goroutine := some g, acquires := true, releases := true, reads := true, writes := true } ∧ s.locked = false ∧
        s'.locked = false ∧ s'.endAsked = s.endAsked) ∨
    ((opOf s g e).goroutine = none ∧ s.locked = true ∧ (s'.locked = true ∨ (opOf s g e).releases = true)) ∨
    (opOf s g e = { goroutine := none, reads := true } ∧ s.pc = .drain) := by
  obtain ⟨hc, tr⟩ := step_tr hs
  have hlk := hi.lock
  cases tr with
  | sendOk hm hl => left; simp [opOf, hm, hl]
  | sendErr hm => simp [opOf, hm] at h
  | sendPanic hm => simp [opOf, hm] at h
  | endTwice => simp [opOf] at h
  | endOnce => simp [opOf] at h
  | recv => simp [opOf] at h
  | tick => simp [opOf] at h
  | seeEnd => simp [opOf] at h
  | connOk => simp [opOf] at h
  | connErr => simp [opOf] at h
  | writeOk hp => right; left; simp [opOf, hlk, hp, holds]
  | writeNobufs hp => right; left; simp [opOf, hlk, hp, holds]
  | writeErr hp => right; left; simp [opOf, hlk, hp, holds]
  | loopMore hp => right; left; simp [opOf, hlk, hp, holds]
  | loopEnd hp => right; left; simp [opOf, hlk, hp, holds]
  | writeEnd hp => right; left; simp [opOf, hlk, hp, holds]
  | unlock hp => right; left; simp [opOf, hlk, hp, holds]
  | drainMore hp => right; right; simp [opOf, hp]
  | drainEnd hp => right; right; simp [opOf, hp]
  | testOut hp => simp [opOf, hp] at h
  | testNil hp => simp [opOf, hp] at h
  | errConn hp => simp [opOf, hp] at h
  | lock hp => simp [opOf, hp] at h
  | errWrite hp => simp [opOf, hp] at h
  | closeOut hp => simp [opOf, hp] at h
  | closeNil hp => simp [opOf, hp] at h
  | closeDone hp => simp [opOf, hp] at h
  | closeErr hp => simp [opOf, hp] at h

/-- Only `runQueue` keeps the lock from one event to the next. -/
theorem lock_change {t : Transport} {s s' : State} {g : Nat} {e : Event} (hs : step t s e = some s') :
    (s.locked = false → s'.locked = true → (opOf s g e).goroutine = none ∧ (opOf s g e).acquires = true) ∧
    (s.locked = true → s'.locked = false → (opOf s g e).goroutine = none ∧ (opOf s g e).releases = true) := by
  obtain ⟨hc, tr⟩ := step_tr hs
  cases tr with
  | lock hp hl => exact ⟨fun _ _ => by simp [opOf, hp], fun _ h2 => by simp at h2⟩
  | unlock hp => exact ⟨fun _ h2 => by simp at h2, fun _ _ => by simp [opOf, hp]⟩
  | _ => exact ⟨fun h1 h2 => absurd (h1.symm.trans h2) (by simp), fun h1 h2 => absurd (h1.symm.trans h2) (by simp)⟩

/-- The end is noticed after it was asked; and asked by a call of `End`. -/
theorem end_change {t : Transport} {s s' : State} {g : Nat} {e : Event} (hs : step t s e = some s') :
    (s.endAsked = false → s'.endAsked = true → (opOf s g e).closesEnd = true) ∧
    (ending s.pc = false → ending s'.pc = true → (opOf s g e).goroutine = none ∧ (opOf s g e).seesEnd = true) ∧
    (s.endCompleted = false → s'.endCompleted = true → (opOf s g e).goroutine = none ∧ (opOf s g e).completes = true) := by
  obtain ⟨hc, tr⟩ := step_tr hs
  cases tr
  all_goals refine ⟨fun h1 h2 => ?_, fun h1 h2 => ?_, fun h1 h2 => ?_⟩
  all_goals try first
    | exact absurd (h1.symm.trans h2) (by simp)
    | simp [opOf]
  all_goals rename_i hp
  all_goals simp_all [ending, ret]

/-- What was asked stays asked, what is completed stays completed. -/
theorem end_mono {t : Transport} {s s' : State} {e : Event} (hs : step t s e = some s') :
    (s.endAsked = true → s'.endAsked = true) ∧ (s.endCompleted = true → s'.endCompleted = true) := by
  obtain ⟨hc, tr⟩ := step_tr hs
  cases tr <;> simp

section
variable {t : Transport} {es : List (Nat × Event)} {sf : State}

theorem at_of_le (h : History t (es.map Prod.snd) sf) (n : Nat) : ∃ s, At t es n s := by
  have hsplit : es.map Prod.snd = (es.take n).map Prod.snd ++ (es.drop n).map Prod.snd := by rw [← List.map_append, List.take_append_drop]
  unfold History at h
  rw [hsplit] at h
  obtain ⟨s, h1, _⟩ := run_split h
  exact ⟨s, h1⟩

theorem at_unique {n : Nat} {s s' : State} (h : At t es n s) (h' : At t es n s') : s = s' := by
  unfold At at h h'
  rw [h] at h'
  exact Option.some.inj h'

theorem at_zero : At t es 0 init := rfl

theorem at_inv {n : Nat} {s : State} (h : At t es n s) : Inv (frames t ((es.take n).map Prod.snd)) s := inv_history h

/-- The operation after the first `n` events. -/
theorem op_at (h : History t (es.map Prod.snd) sf) {n : Nat} (hn : n < es.length) :
    ∃ s s' g e, At t es n s ∧ At t es (n + 1) s' ∧ es[n]? = some (g, e) ∧ (ops t init es)[n]? = some (opOf s g e) ∧ step t s e = some s' := by
  have hl : n < (ops t init es).length := by rw [ops_length h]; exact hn
  obtain ⟨s, s', g, e, h1, h2, h3, h4, h5⟩ := ops_get h (List.getElem?_eq_getElem hl)
  exact ⟨s, s', g, e, h1, h5, h2, by rw [List.getElem?_eq_getElem hl, h3], h4⟩

/-- Something that is false at first and true later became true at some operation, and stayed true after it. -/
theorem became (h : History t (es.map Prod.snd) sf) (P : State → Bool) {m n : Nat} (hmn : m ≤ n) (hn : n ≤ es.length) {s0 s : State}
    (h0 : At t es m s0) (hs : At t es n s) (hp0 : P s0 = false) (hp : P s = true) :
    ∃ k a b g e, m ≤ k ∧ k < n ∧ At t es k a ∧ At t es (k + 1) b ∧ (ops t init es)[k]? = some (opOf a g e) ∧ step t a e = some b ∧
      P a = false ∧ P b = true ∧ ∀ i x, k < i → i ≤ n → At t es i x → P x = true := by
  induction n generalizing s with
  | zero =>
    obtain rfl : m = 0 := by omega
    rw [at_unique h0 hs] at hp0
    simp [hp0] at hp
  | succ n ih =>
    rcases Nat.lt_or_eq_of_le hmn with hlt | heq
    · obtain ⟨a, b, g, e, ha, hb, _, hop, hst⟩ := op_at h (n := n) (by omega)
      obtain rfl := at_unique hs hb
      cases hpa : P a with
      | false =>
        refine ⟨n, a, s, g, e, by omega, by omega, ha, hb, hop, hst, hpa, hp, ?_⟩
        intro i x h1 h2 hx
        obtain rfl : i = n + 1 := by omega
        rw [at_unique hx hs]; exact hp
      | true =>
        obtain ⟨k, a', b', g', e', h1, h2, h3, h4, h5, h6, h7, h8, h9⟩ := ih (by omega) (by omega) ha hpa
        refine ⟨k, a', b', g', e', h1, by omega, h3, h4, h5, h6, h7, h8, ?_⟩
        intro i x hi1 hi2 hx
        rcases Nat.lt_or_eq_of_le hi2 with hi | hi
        · exact h9 i x hi1 (by omega) hx
        · subst hi; rw [at_unique hx hs]; exact hp
    · subst heq
      rw [at_unique h0 hs] at hp0
      simp [hp0] at hp
end

end Syslog5424.Sender
