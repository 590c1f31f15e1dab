import Verif.Spec.UserConn
import Verif.Props.Sender
/-! # Property C91: a sender with any connector function -/
namespace Syslog5424
open Spec Sender

/-- The transitions of the model. -/
inductive UTr (t : Transport) (u : UState) : UEvent → UState → Prop
  | both {e : Nat} {f : Bool} : u.s.pc = .connect f →
      UTr t u (.both e) ⟨{ u.s with output := true, conns := u.s.conns ++ [⟨[], false⟩], pc := .errConn f (.connect e) }, u.panicking⟩
  | neither {f : Bool} : u.s.pc = .connect f → UTr t u .neither ⟨{ u.s with pc := .lock f }, u.panicking⟩
  | nilFin : u.s.pc = .loop true → u.s.queue ≠ [] → u.s.output = false →
      UTr t u (.std .tau) ⟨{ u.s with crashed := true }, u.panicking⟩
  | nil : u.s.pc = .loop false → u.s.queue ≠ [] → u.s.output = false →
      UTr t u (.std .tau) ⟨{ u.s with locked := false, pc := .drain }, true⟩
  | crash : u.s.pc = .closeErr → u.panicking = true → UTr t u (.std .tau) ⟨{ u.s with errClosed := true, crashed := true }, true⟩
  | std {e : Event} {s' : State} : (∀ f, u.s.pc = .loop f → u.s.queue ≠ [] → e = .tau → u.s.output = true) →
      (u.s.pc = .closeErr → e = .tau → u.panicking = false) → step t u.s e = some s' → UTr t u (.std e) ⟨s', u.panicking⟩

theorem ustep_tr {t : Transport} {u u' : UState} {ev : UEvent} (h : ustep t u ev = some u') : u.s.crashed = false ∧ UTr t u ev u' := by
  have hcr : u.s.crashed = false := by
    cases hc : u.s.crashed with
    | false => rfl
    | true => simp [ustep, hc] at h
  refine ⟨hcr, ?_⟩
  unfold ustep at h
  rw [if_neg (by rw [hcr]; decide)] at h
  split at h
  · rename_i e f hpc
    simp only [Option.some.injEq] at h; subst h; exact .both hpc
  · rename_i f hpc
    simp only [Option.some.injEq] at h; subst h; exact .neither hpc
  · rename_i f hpc
    split at h
    · rename_i hq
      have hq0 : u.s.queue ≠ [] := by intro e; rw [e] at hq; simp at hq
      cases f with
      | true => simp only [if_true, Option.some.injEq] at h; subst h; exact .nilFin hpc hq0 hq.2
      | false => simp only [Bool.false_eq_true, if_false, Option.some.injEq] at h; subst h; exact .nil hpc hq0 hq.2
    · rename_i hq
      rw [Option.map_eq_some_iff] at h
      obtain ⟨s', h1, rfl⟩ := h
      refine .std ?_ ?_ h1
      · intro f' _ hq0 _
        have hl : 0 < u.s.queue.length := List.length_pos_iff.mpr hq0
        cases ho : u.s.output with
        | true => rfl
        | false => exact absurd ⟨hl, ho⟩ hq
      · intro hp; rw [hpc] at hp; cases hp
  · rename_i hpc
    split at h
    · rename_i hp
      simp only [Option.some.injEq] at h; subst h
      rw [hp]
      exact .crash hpc hp
    · rename_i hp
      rw [Option.map_eq_some_iff] at h
      obtain ⟨s', h1, rfl⟩ := h
      refine .std ?_ ?_ h1
      · intro f' hl; rw [hpc] at hl; cases hl
      · intro _ _; simpa using hp
  · rename_i e n1 n2
    rw [Option.map_eq_some_iff] at h
    obtain ⟨s', h1, rfl⟩ := h
    refine .std ?_ ?_ h1
    · intro f hl _ he; subst he; exact absurd rfl (n1 f hl)
    · intro hl he; subst he; exact absurd rfl (n2 hl)
  · cases h

theorem urun_cons {t : Transport} {u u' : UState} {e : UEvent} {es : List UEvent} (h : urun t u (e :: es) = some u') :
    ∃ x, ustep t u e = some x ∧ urun t x es = some u' := by
  simp only [urun] at h
  cases hst : ustep t u e with
  | none => rw [hst] at h; cases h
  | some x => rw [hst] at h; exact ⟨x, rfl, h⟩

theorem urun_split {t : Transport} {u u'' : UState} {es es' : List UEvent} (h : urun t u (es ++ es') = some u'') :
    ∃ u', urun t u es = some u' ∧ urun t u' es' = some u'' := by
  induction es generalizing u with
  | nil => exact ⟨u, rfl, h⟩
  | cons e r ih =>
    obtain ⟨x, h1, h2⟩ := urun_cons (es := r ++ es') h
    obtain ⟨u', h3, h4⟩ := ih h2
    exact ⟨u', by simp only [urun, h1, Option.bind_some, h3], h4⟩

/-- Places where `c.output` cannot be nil, whatever the connector returns. -/
def Sender.uneeds : PC → Bool
  | .write _ _ _ => true
  | _ => false

/-- The invariant. -/
structure Sender.UInv (fr : List Bytes) (s : State) : Prop where
  data : wireOf s.conns ++ s.queue.flatten.drop (pend s.pc) = fr.flatten
  pos : ∀ f k n, s.pc = .write f k n → k ≤ s.queue.length ∧ n = (s.queue.take k).flatten.length
  lock : s.locked = holds s.pc
  out : s.output = true → s.conns ≠ []
  need : uneeds s.pc = true → s.output = true

theorem uinv_init : UInv [] init := ⟨rfl, by simp [init], rfl, by simp [init], by simp [init, uneeds]⟩

theorem uinv_std {t : Transport} {fr : List Bytes} {s s' : State} {e : Event} (h : UInv fr s)
    (hl : ∀ f, s.pc = .loop f → s.queue ≠ [] → e = .tau → s.output = true) (hs : step t s e = some s') :
    UInv (fr ++ frames t [e]) s' := by
  obtain ⟨data, pos, lock, out, need⟩ := h
  obtain ⟨_, htr⟩ := step_tr hs
  have hwr : ∀ f k n nb b, s.pc = .write f k n → s.queue[k]? = some b → nb ≤ b.length →
      wireOf (addWrite (b.take nb) s.conns) ++ s.queue.flatten.drop (n + nb) = fr.flatten := by
    intro f k n nb b hpc hb hle
    have hc := out (need (by rw [hpc]; rfl))
    have hsplit := drop_take_split s.queue k b hb nb hle
    rw [← (pos f k n hpc).2] at hsplit
    rw [wireOf_addWrite _ _ hc, List.append_assoc, ← hsplit]
    rw [hpc] at data
    exact data
  cases htr with
  | @sendOk m b hb hlk =>
    simp only [frames, hb]
    have hp : pend s.pc = 0 := by
      rw [hlk] at lock
      revert lock
      cases s.pc <;> simp [holds, pend]
    refine ⟨?_, ?_, lock, out, need⟩
    · rw [hp] at data
      simp only [hp, List.drop_zero] at data ⊢
      rw [List.flatten_append, ← List.append_assoc, data, List.flatten_append]
    · intro f k n hpc
      simp only at hpc
      rw [hpc, hlk] at lock
      cases lock
  | sendErr he => simp only [frames, he, List.append_nil]; exact ⟨data, pos, lock, out, need⟩
  | sendPanic he => simp only [frames, he, List.append_nil]; exact ⟨data, pos, lock, out, need⟩
  | endTwice => simp only [frames, List.append_nil]; exact ⟨data, pos, lock, out, need⟩
  | endOnce => simp only [frames, List.append_nil]; exact ⟨data, pos, lock, out, need⟩
  | recv => simp only [frames, List.append_nil]; exact ⟨data, pos, lock, out, need⟩
  | tick hpc => simp only [frames, List.append_nil]; rw [hpc] at data lock; exact ⟨data, by simp, lock, out, by simp [uneeds]⟩
  | seeEnd hpc => simp only [frames, List.append_nil]; rw [hpc] at data lock; exact ⟨data, by simp, lock, out, by simp [uneeds]⟩
  | testOut hpc => simp only [frames, List.append_nil]; rw [hpc] at data lock; exact ⟨data, by simp, lock, out, by simp [uneeds]⟩
  | testNil hpc => simp only [frames, List.append_nil]; rw [hpc] at data lock; exact ⟨data, by simp, lock, out, by simp [uneeds]⟩
  | connOk hpc =>
    simp only [frames, List.append_nil]; rw [hpc] at data lock
    exact ⟨by simp only [wireOf_new]; exact data, by simp, lock, by simp, by simp [uneeds]⟩
  | connErr hpc => simp only [frames, List.append_nil]; rw [hpc] at data lock; exact ⟨data, by simp, lock, out, by simp [uneeds]⟩
  | @errConn f _ hpc =>
    simp only [frames, List.append_nil]; rw [hpc] at data lock
    cases f <;> exact ⟨data, by simp [ret], lock, out, by simp [uneeds, ret]⟩
  | lock hpc => simp only [frames, List.append_nil]; rw [hpc] at data; exact ⟨data, by simp, rfl, out, by simp [uneeds]⟩
  | @loopMore f hpc hq =>
    have ho := hl f hpc hq rfl
    simp only [frames, List.append_nil]; rw [hpc] at data lock
    refine ⟨data, ?_, lock, out, fun _ => ho⟩
    intro f' k' n' he
    simp only [PC.write.injEq] at he
    obtain ⟨_, rfl, rfl⟩ := he
    simp
  | loopEnd hpc => simp only [frames, List.append_nil]; rw [hpc] at data lock; exact ⟨data, by simp, lock, out, by simp [uneeds]⟩
  | writeEnd hpc =>
    simp only [frames, List.append_nil]; rw [hpc] at data lock
    refine ⟨?_, by simp, lock, out, by simp [uneeds]⟩
    simp only [pend, List.drop_zero]
    rw [consume_flatten]; exact data
  | @writeOk f k n b hpc hb =>
    have hw := hwr f k n b.length b hpc hb (Nat.le_refl _)
    have hpos := pos f k n hpc
    have ho := need (by rw [hpc]; rfl)
    have hc := out ho
    simp only [frames, List.append_nil]; rw [hpc] at lock
    rw [List.take_length] at hw
    refine ⟨hw, ?_, lock, fun _ => addWrite_ne_nil hc, fun _ => ho⟩
    intro f' k' n' he
    simp only [PC.write.injEq] at he
    obtain ⟨_, rfl, rfl⟩ := he
    have hk : k < s.queue.length := (List.getElem?_eq_some_iff.mp hb).1
    exact ⟨hk, by rw [take_flatten_length_succ s.queue k b hb, hpos.2]⟩
  | @writeNobufs f k n nb b hpc hb hle =>
    have hw := hwr f k n nb b hpc hb hle
    have hc := out (need (by rw [hpc]; rfl))
    simp only [frames, List.append_nil]; rw [hpc] at lock
    refine ⟨?_, by simp, lock, fun _ => addWrite_ne_nil hc, by simp [uneeds]⟩
    simp only [pend, List.drop_zero]
    rw [consume_flatten]; exact hw
  | @writeErr f k n nb e b hpc hb hle =>
    have hw := hwr f k n nb b hpc hb hle
    have hc := out (need (by rw [hpc]; rfl))
    simp only [frames, List.append_nil]; rw [hpc] at lock
    refine ⟨?_, by simp, lock, fun _ => addWrite_ne_nil hc, by simp [uneeds]⟩
    simp only [pend, List.drop_zero]
    rw [consume_flatten]; exact hw
  | errWrite hpc => simp only [frames, List.append_nil]; rw [hpc] at data lock; exact ⟨data, by simp, lock, by simp, by simp [uneeds]⟩
  | @unlock f hpc =>
    simp only [frames, List.append_nil]; rw [hpc] at data
    cases f <;> exact ⟨data, by simp [ret], rfl, out, by simp [uneeds, ret]⟩
  | drainMore hpc => simp only [frames, List.append_nil]; rw [hpc] at data lock; exact ⟨data, by simp, lock, out, by simp [uneeds]⟩
  | drainEnd hpc => simp only [frames, List.append_nil]; rw [hpc] at data lock; exact ⟨data, by simp, lock, out, by simp [uneeds]⟩
  | closeOut hpc ho =>
    simp only [frames, List.append_nil]; rw [hpc] at data lock
    exact ⟨by rw [wireOf_closeLast]; exact data, by simp, lock, fun _ => closeLast_ne_nil (out ho), by simp [uneeds]⟩
  | closeNil => simp only [frames, List.append_nil]; exact ⟨data, pos, lock, out, need⟩
  | closeDone hpc => simp only [frames, List.append_nil]; rw [hpc] at data lock; exact ⟨data, by simp, lock, out, by simp [uneeds]⟩
  | closeErr hpc => simp only [frames, List.append_nil]; rw [hpc] at data lock; exact ⟨data, by simp, lock, out, by simp [uneeds]⟩

theorem uinv_step {t : Transport} {fr : List Bytes} {u u' : UState} {ev : UEvent} (h : UInv fr u.s) (hs : ustep t u ev = some u') :
    UInv (fr ++ frames t (stdOf [ev])) u'.s := by
  obtain ⟨_, htr⟩ := ustep_tr hs
  cases htr with
  | both hpc =>
    obtain ⟨data, pos, lock, out, need⟩ := h
    rw [hpc] at data lock
    simp only [stdOf, frames, List.append_nil]
    exact ⟨by simp only [wireOf_new]; exact data, by simp, lock, by simp, by simp [uneeds]⟩
  | neither hpc =>
    obtain ⟨data, pos, lock, out, need⟩ := h
    rw [hpc] at data lock
    simp only [stdOf, frames, List.append_nil]
    exact ⟨data, by simp, lock, out, by simp [uneeds]⟩
  | nilFin => simp only [stdOf, frames, List.append_nil]; exact ⟨h.data, h.pos, h.lock, h.out, h.need⟩
  | nil hpc =>
    obtain ⟨data, pos, lock, out, need⟩ := h
    rw [hpc] at data
    simp only [stdOf, frames, List.append_nil]
    exact ⟨data, by simp, rfl, out, by simp [uneeds]⟩
  | crash => simp only [stdOf, frames, List.append_nil]; exact ⟨h.data, h.pos, h.lock, h.out, h.need⟩
  | std hl _ hst => exact uinv_std h hl hst

theorem stdOf_cons (e : UEvent) (es : List UEvent) : stdOf (e :: es) = stdOf [e] ++ stdOf es := by cases e <;> rfl

theorem frames_append' (t : Transport) (es es' : List Event) : frames t (es ++ es') = frames t es ++ frames t es' := by
  induction es with
  | nil => rfl
  | cons e r ih => rw [List.cons_append, frames_cons, ih, frames_cons t e r, List.append_assoc]

theorem uinv_run {t : Transport} {fr : List Bytes} {u u' : UState} {es : List UEvent} (h : UInv fr u.s) (hs : urun t u es = some u') :
    UInv (fr ++ frames t (stdOf es)) u'.s := by
  induction es generalizing u fr with
  | nil => simp only [urun, Option.some.injEq] at hs; subst hs; simpa [stdOf, frames] using h
  | cons e r ih =>
    obtain ⟨x, h1, h2⟩ := urun_cons hs
    have := ih (uinv_step h h1) h2
    rw [stdOf_cons, frames_append', ← List.append_assoc]; exact this

/-- **C91.** Whatever the connector returns, what was written over all connections, in order, followed by what is still queued
(less what the write in progress has accepted), is the concatenation of the frames of the accepted messages, in order. -/
theorem C91_exactly_once (t : Transport) (es : List UEvent) (u : UState) (h : UHistory t es u) :
    wire u.s ++ u.s.queue.flatten.drop (match u.s.pc with | .write _ _ n => n | _ => 0) = (frames t (stdOf es)).flatten := by
  have := (uinv_run uinv_init h).data
  rw [List.nil_append] at this
  unfold wire
  rw [← this]
  unfold wireOf
  congr 2

theorem uerrors_cons (e : UEvent) (es : List UEvent) : uerrors (e :: es) = uerrors [e] ++ uerrors es := by
  cases e <;> simp [uerrors]

theorem received_append (es es' : List Event) : received (es ++ es') = received es ++ received es' := by
  induction es with
  | nil => rfl
  | cons e r ih => rw [List.cons_append, received_cons, ih, received_cons e r, List.append_assoc]

/-- **C91.** Whatever the connector returns, its errors and those of the writes are, in order, those received on the error
channel, then the one in the channel, then the one about to be reported. -/
theorem C91_reported (t : Transport) (es : List UEvent) (u : UState) (h : UHistory t es u) :
    uerrors es = received (stdOf es) ++ u.s.errs ++ (match u.s.pc with | .errConn _ e => [e] | .errWrite _ e => [e] | _ => []) := by
  have key : ∀ (es : List UEvent) (a b : UState) (er re : List SErr), er = re ++ a.s.errs ++ pendErr a.s.pc → urun t a es = some b →
      er ++ uerrors es = re ++ received (stdOf es) ++ b.s.errs ++ pendErr b.s.pc := by
    intro es
    induction es with
    | nil => intro a b er re hp hab; simp only [urun, Option.some.injEq] at hab; subst hab; simpa [uerrors, stdOf, received] using hp
    | cons e r ih =>
      intro a b er re hp hab
      obtain ⟨x, hst, hab⟩ := urun_cons hab
      rw [uerrors_cons, stdOf_cons, received_append, ← List.append_assoc, ← List.append_assoc]
      refine ih x b _ _ ?_ hab
      obtain ⟨_, htr⟩ := ustep_tr hst
      cases htr with
      | both hpc => rw [hpc] at hp; simp [uerrors, stdOf, received, hp, pendErr]
      | neither hpc => rw [hpc] at hp; simp [uerrors, stdOf, received, hp, pendErr]
      | nilFin hpc => rw [hpc] at hp; simp [uerrors, errors, stdOf, received, hp, pendErr, hpc]
      | nil hpc => rw [hpc] at hp; simp [uerrors, errors, stdOf, received, hp, pendErr]
      | crash hpc => rw [hpc] at hp; simp [uerrors, errors, stdOf, received, hp, pendErr, hpc]
      | @std e s' _ _ hs =>
        have := errs_run (es := [e]) hp (by simp only [run, hs, Option.bind_some] : run t a.s [e] = some s')
        simpa [uerrors, stdOf] using this
  have := key es uinit u [] [] (by simp [uinit, init, pendErr]) h
  simp only [List.nil_append] at this
  rw [this]
  cases u.s.pc <;> rfl

/-- **C91.** With a connector that returns a connection or an error, the histories are those of C34 to C39. -/
theorem C91_same (t : Transport) (es : List Event) (u : UState) :
    UHistory t (es.map .std) u ↔ u.panicking = false ∧ History t es u.s := by
  have key : ∀ (es : List Event) (a : State) (fr : List Bytes) (u : UState), Inv fr a →
      (urun t ⟨a, false⟩ (es.map .std) = some u ↔ u.panicking = false ∧ run t a es = some u.s) := by
    intro es
    induction es with
    | nil =>
      intro a fr u _
      obtain ⟨s, p⟩ := u
      simp only [List.map_nil, urun, run, Option.some.injEq, UState.mk.injEq]
      exact ⟨fun h => ⟨h.2.symm, h.1⟩, fun h => ⟨h.2, h.1.symm⟩⟩
    | cons e r ih =>
      intro a fr u hi
      have hstep : ustep t ⟨a, false⟩ (.std e) = (step t a e).map fun s => ⟨s, false⟩ := by
        unfold ustep
        cases hcr : a.crashed with
        | true => simp [step, hcr]
        | false =>
          have hl : ∀ f, a.pc = .loop f → ¬ (a.queue.length > 0 ∧ a.output = false) := by
            intro f hpc
            rw [hi.need (by rw [hpc]; rfl)]; simp
          rw [if_neg (by simp)]
          cases e <;> first | rfl | skip
          cases hpc : a.pc with
          | loop f => exact if_neg (hl f hpc)
          | _ => rfl
      simp only [List.map_cons, urun, run, hstep]
      cases hst : step t a e with
      | none => simp
      | some x => exact ih x _ u (inv_step hi hst)
  exact key es init [] u inv_init

/-! ## what goes wrong -/

theorem urun_induct {t : Transport} {P : UState → Prop} {es : List UEvent} {u u' : UState} (h : urun t u es = some u') (h0 : P u)
    (hstep : ∀ a e b, e ∈ es → P a → ustep t a e = some b → P b) : P u' := by
  induction es generalizing u with
  | nil => simp only [urun, Option.some.injEq] at h; subst h; exact h0
  | cons e r ih =>
    obtain ⟨x, h1, h2⟩ := urun_cons h
    exact ih h2 (hstep u e x (by simp) h0 h1) (fun a e' b he => hstep a e' b (by simp [he]))

/-- There is a connection, and it stays. -/
def Sender.keeps (s : State) : Prop :=
  s.output = true ∧ (∀ f, s.pc ≠ .connect f) ∧ ∀ f e, s.pc ≠ .errWrite f e

/-- C91 is violated: a connection that came with an error is kept, and used, until a `Write` to it fails. -/
theorem C91_kept_violated (t : Transport) (before mid : List UEvent) (e : Nat) (c : UEvent) (hc : isConnect c = true) (u : UState)
    (h : UHistory t (before ++ .both e :: (mid ++ [c])) u) : ∃ nb e', UEvent.std (.write nb (some (.other e'))) ∈ mid := by
  obtain ⟨u1, _, h2⟩ := urun_split h
  obtain ⟨u2, h3, h4⟩ := urun_cons h2
  obtain ⟨u3, h5, h6⟩ := urun_split h4
  obtain ⟨u4, h7, _⟩ := urun_cons h6
  obtain ⟨_, htr⟩ := ustep_tr h3
  have hk : keeps u2.s := by cases htr; exact ⟨rfl, by simp, by simp⟩
  refine Classical.byContradiction fun hno => ?_
  have hk3 : keeps u3.s := by
    refine urun_induct (P := fun u => keeps u.s) h5 hk ?_
    rintro a ev b hmem ⟨p1, p2, p3⟩ hab
    obtain ⟨_, htr⟩ := ustep_tr hab
    cases htr with
    | both hpc => exact absurd hpc (p2 _)
    | neither hpc => exact absurd hpc (p2 _)
    | nilFin _ _ ho => rw [p1] at ho; cases ho
    | nil _ _ ho => rw [p1] at ho; cases ho
    | crash hpc => exact ⟨p1, p2, p3⟩
    | std _ _ hs =>
      obtain ⟨_, htr⟩ := step_tr hs
      cases htr with
      | testNil _ ho => rw [p1] at ho; cases ho
      | connOk hpc => exact absurd hpc (p2 _)
      | connErr hpc => exact absurd hpc (p2 _)
      | writeErr => exact absurd ⟨_, _, hmem⟩ hno
      | errWrite hpc => exact absurd hpc (p3 _ _)
      | @errConn f _ _ => cases f <;> exact ⟨p1, by simp [ret], by simp [ret]⟩
      | @unlock f _ => cases f <;> exact ⟨p1, by simp [ret], by simp [ret]⟩
      | sendOk => exact ⟨p1, p2, p3⟩
      | sendErr => exact ⟨p1, p2, p3⟩
      | sendPanic => exact ⟨p1, p2, p3⟩
      | endTwice => exact ⟨p1, p2, p3⟩
      | endOnce => exact ⟨p1, p2, p3⟩
      | recv => exact ⟨p1, p2, p3⟩
      | closeNil => exact ⟨p1, p2, p3⟩
      | _ => exact ⟨p1, by simp, by simp⟩
  obtain ⟨p1, p2, p3⟩ := hk3
  obtain ⟨_, htr⟩ := ustep_tr h7
  cases htr with
  | both hpc => exact p2 _ hpc
  | neither hpc => exact p2 _ hpc
  | nilFin => cases hc
  | nil => cases hc
  | crash => cases hc
  | std _ _ hs =>
    obtain ⟨_, htr⟩ := step_tr hs
    cases htr with
    | connOk hpc => exact p2 _ hpc
    | connErr hpc => exact p2 _ hpc
    | _ => cases hc

/-- C91 is violated: here a message goes over a connection that came with an error (which is reported). -/
theorem C91_used_violated : ∃ es u, UHistory .lfEnded es u ∧ es.filter isConnect = [.both 7] ∧ received (stdOf es) = [.connect 7] ∧
    u.s.conns = [⟨[b!"<14>1 1970-01-01T00:00:00Z h a 1 - - x\n"], false⟩] ∧ u.s.crashed = false :=
  ⟨[.std (.send (exMsg b!"x")), .std .tick, .std .tau, .both 7, .std .tau, .std (.recvErr (.connect 7)), .std .tick, .std .tau, .std .tau,
    .std .tau, .std (.write 39 none)],
    ⟨⟨[b!"<14>1 1970-01-01T00:00:00Z h a 1 - - x\n"], [⟨[b!"<14>1 1970-01-01T00:00:00Z h a 1 - - x\n"], false⟩], true, true, [],
      false, false, false, false, .write false 1 39⟩, false⟩, by decide +kernel, rfl, rfl, rfl, rfl⟩

/-- C91 is violated: when `Connect` returns neither a connection nor an error while there is something to send, the sender never
ends well: the error channel is closed only in a program that crashes. -/
theorem C91_crash_violated (t : Transport) (before after : List UEvent) (u0 u : UState) (h0 : UHistory t before u0)
    (hq : wire u0.s ≠ (frames t (stdOf before)).flatten) (h : UHistory t (before ++ .neither :: after) u) :
    u.s.pc ≠ .done ∧ (u.s.errClosed = true → u.s.crashed = true) := by
  have hclosed : u0.s.errClosed = true → u0.s.pc = .done ∨ u0.s.crashed = true := by
    refine urun_induct (P := fun u => u.s.errClosed = true → u.s.pc = .done ∨ u.s.crashed = true) h0 (by simp [uinit, init]) ?_
    intro a ev b _ hp hab
    obtain ⟨hcr, htr⟩ := ustep_tr hab
    rw [hcr] at hp
    simp only [Bool.false_eq_true, or_false] at hp
    cases htr with
    | both hpc => rw [hpc] at hp; intro hx; exact absurd (hp hx) (by simp)
    | neither hpc => rw [hpc] at hp; intro hx; exact absurd (hp hx) (by simp)
    | nilFin hpc => intro _; exact Or.inr rfl
    | nil hpc => rw [hpc] at hp; intro hx; exact absurd (hp hx) (by simp)
    | crash hpc => intro _; exact Or.inr rfl
    | std _ _ hs =>
      obtain ⟨_, htr⟩ := step_tr hs
      cases htr with
      | closeErr => intro _; exact Or.inl rfl
      | sendPanic => intro _; exact Or.inr rfl
      | endTwice => intro _; exact Or.inr rfl
      | closeNil => intro _; exact Or.inr rfl
      | sendOk => exact fun hx => Or.inl (hp hx)
      | sendErr => exact fun hx => Or.inl (hp hx)
      | endOnce => exact fun hx => Or.inl (hp hx)
      | recv => exact fun hx => Or.inl (hp hx)
      | _ => intro hx; have := hp hx; simp_all
  obtain ⟨u1, h1, h2⟩ := urun_split h
  have e1 : u1 = u0 := by rw [UHistory, h1] at h0; exact Option.some.inj h0
  subst e1
  obtain ⟨u2, h3, h4⟩ := urun_cons h2
  obtain ⟨hcr, htr⟩ := ustep_tr h3
  have hq0 : u1.s.queue ≠ [] := by
    intro e
    have := C91_exactly_once t before u1 h0
    rw [e] at this
    exact hq (by simpa using this)
  have hi1 := uinv_run uinv_init h0
  let P : UState → Prop := fun u => (u.s.errClosed = true → u.s.crashed = true) ∧ u.s.pc ≠ .done ∧ (u.s.crashed = true ∨
    u.panicking = true ∨ (u.s.queue ≠ [] ∧ u.s.output = false ∧ ∃ f, u.s.pc = .lock f ∨ u.s.pc = .loop f))
  have hout : ∀ f, u1.s.pc = .connect f → u1.s.output = false := by
    refine urun_induct (P := fun u => ∀ f, u.s.pc = .connect f → u.s.output = false) h0 (by simp [uinit, init]) ?_
    intro a ev b _ hp hab
    obtain ⟨_, htr⟩ := ustep_tr hab
    cases htr with
    | both => simp
    | neither => simp
    | nilFin => exact hp
    | nil => simp
    | crash => exact hp
    | std _ _ hs =>
      obtain ⟨_, htr⟩ := step_tr hs
      cases htr with
      | testNil _ ho => exact fun _ _ => ho
      | sendOk => exact hp
      | sendErr => exact hp
      | sendPanic => exact hp
      | endTwice => exact hp
      | endOnce => exact hp
      | recv => exact hp
      | closeNil => exact hp
      | @errConn f _ _ => cases f <;> simp [ret]
      | @unlock f _ => cases f <;> simp [ret]
      | _ => simp
  have hmain : P u2 := by
    cases htr with
    | @neither f hpc =>
      refine ⟨?_, by simp, Or.inr (Or.inr ⟨hq0, hout f hpc, f, Or.inl rfl⟩)⟩
      intro hx
      rcases hclosed hx with hd | hc
      · rw [hpc] at hd; cases hd
      · exact hc
  have hfin : P u := by
    refine urun_induct (P := P) h4 hmain ?_
    rintro a ev b _ ⟨p1, p2, p3⟩ hab
    obtain ⟨hcr, htr⟩ := ustep_tr hab
    have p1' : a.s.errClosed = false := by
      cases hx : a.s.errClosed with
      | false => rfl
      | true => rw [p1 hx] at hcr; cases hcr
    rcases p3 with p3 | p3 | ⟨q1, q2, f, q3⟩
    · rw [p3] at hcr; cases hcr
    · cases htr with
      | both => exact ⟨by simp [p1'], by simp, Or.inr (Or.inl p3)⟩
      | neither => exact ⟨by simp [p1'], by simp, Or.inr (Or.inl p3)⟩
      | nilFin => exact ⟨by simp, p2, Or.inl rfl⟩
      | nil => exact ⟨by simp [p1'], by simp, Or.inr (Or.inl rfl)⟩
      | crash => exact ⟨by simp, p2, Or.inl rfl⟩
      | std _ hce hs =>
        have key : ∀ s', s'.errClosed = false → s'.pc ≠ .done → P ⟨s', a.panicking⟩ :=
          fun s' k1 k2 => ⟨by simp [k1], k2, Or.inr (Or.inl p3)⟩
        obtain ⟨_, htr⟩ := step_tr hs
        cases htr with
        | closeErr hpc => exact absurd (hce hpc rfl) (by rw [p3]; simp)
        | @errConn f _ _ => exact key _ p1' (by cases f <;> simp [ret])
        | @unlock f _ => exact key _ p1' (by cases f <;> simp [ret])
        | sendOk => exact key _ p1' p2
        | sendErr => exact key _ p1' p2
        | sendPanic => exact key _ p1' p2
        | endTwice => exact key _ p1' p2
        | endOnce => exact key _ p1' p2
        | recv => exact key _ p1' p2
        | closeNil => exact key _ p1' p2
        | _ => exact key _ p1' (by simp)
    · have hne : ∀ pc, a.s.pc = pc → (∀ g, pc ≠ .lock g) → (∀ g, pc ≠ .loop g) → False := by
        intro pc e n1 n2
        rw [e] at q3
        rcases q3 with q3 | q3
        · exact n1 _ q3
        · exact n2 _ q3
      have key : ∀ s', s'.errClosed = false → s'.queue ≠ [] → s'.output = false → s'.pc = a.s.pc → P ⟨s', a.panicking⟩ := by
        intro s' k1 k2 k3 k4
        refine ⟨by simp [k1], by rw [k4]; exact p2, Or.inr (Or.inr ⟨k2, k3, f, by rw [k4]; exact q3⟩)⟩
      cases htr with
      | both hpc => exact (hne _ hpc (by simp) (by simp)).elim
      | neither hpc => exact (hne _ hpc (by simp) (by simp)).elim
      | nilFin => exact ⟨by simp, p2, Or.inl rfl⟩
      | nil => exact ⟨by simp [p1'], by simp, Or.inr (Or.inl rfl)⟩
      | crash => exact ⟨by simp, p2, Or.inl rfl⟩
      | std hlp _ hs =>
        obtain ⟨_, htr⟩ := step_tr hs
        cases htr with
        | sendOk => exact key _ p1' (by simp) q2 rfl
        | sendErr => exact key _ p1' q1 q2 rfl
        | sendPanic => exact ⟨by simp, p2, Or.inl rfl⟩
        | endTwice => exact ⟨by simp, p2, Or.inl rfl⟩
        | endOnce => exact key _ p1' q1 q2 rfl
        | recv => exact key _ p1' q1 q2 rfl
        | closeNil => exact ⟨by simp, p2, Or.inl rfl⟩
        | @lock g hpc => exact ⟨by simp [p1'], by simp, Or.inr (Or.inr ⟨q1, q2, g, Or.inr rfl⟩)⟩
        | loopMore hpc hq => have := hlp _ hpc hq rfl; rw [q2] at this; cases this
        | loopEnd hpc hq => exact absurd hq q1
        | _ => simp_all
  exact ⟨hfin.2.1, hfin.1⟩

/-- A history with a `Connect` that returns neither a connection nor an error. -/
def exNeither : List UEvent :=
  [.std (.send (exMsg b!"x")), .std .tick, .std .tau]

/-- The panic runs the deferred function, which connects again, sends the message, and closes everything; then the program
crashes. The hypotheses of `C91_crash_violated` are met. -/
example : ∃ u0 u, UHistory .lfEnded exNeither u0 ∧ wire u0.s ≠ (frames .lfEnded (stdOf exNeither)).flatten ∧
    UHistory .lfEnded (exNeither ++ .neither :: [.std .tau, .std .tau, .std .tau, .std .tau, .std (.connect none), .std .tau, .std .tau,
      .std (.write 39 none), .std .tau, .std .tau, .std .tau, .std .tau, .std .tau, .std .tau, .std .tau]) u ∧
    u.s.crashed = true ∧ u.s.conns = [⟨[b!"<14>1 1970-01-01T00:00:00Z h a 1 - - x\n"], true⟩] :=
  ⟨⟨⟨[b!"<14>1 1970-01-01T00:00:00Z h a 1 - - x\n"], [], false, false, [], false, false, false, false, .connect false⟩, false⟩,
    ⟨⟨[], [⟨[b!"<14>1 1970-01-01T00:00:00Z h a 1 - - x\n"], true⟩], true, false, [], false, true, true, true, .closeErr⟩, true⟩,
    by decide +kernel, by decide +kernel, by decide +kernel, rfl, rfl⟩

/-- The hypotheses of `C91_kept_violated` are met. -/
example : ∃ u, UHistory .lfEnded ([.std (.send (exMsg b!"x")), .std .tick, .std .tau] ++ .both 7 ::
    ([.std .tau, .std (.recvErr (.connect 7)), .std .tick, .std .tau, .std .tau, .std .tau, .std (.write 0 (some (.other 1))), .std .tau,
      .std .tau, .std .tick, .std .tau] ++ [.std (.connect none)])) u :=
  ⟨⟨⟨[b!"<14>1 1970-01-01T00:00:00Z h a 1 - - x\n"], [⟨[[]], false⟩, ⟨[], false⟩], true, false, [.write 1], false, false, false, false,
    .lock false⟩, false⟩, by decide +kernel⟩

end Syslog5424
