import Verif.Spec.Sender
/-! # Lemmas about the sender: the invariant of every history -/
namespace Syslog5424.Sender
open Spec

theorem consume_flatten (q : List Bytes) (n : Nat) : (consume q n).flatten = q.flatten.drop n := by
  induction q generalizing n with
  | nil => simp [consume]
  | cons b r ih =>
    unfold consume
    by_cases h : b.length > n
    · rw [if_pos h, List.flatten_cons, List.flatten_cons, List.drop_append_of_le_length (by omega)]
    · rw [if_neg h, ih, List.flatten_cons, List.drop_append, List.drop_eq_nil_of_le (by omega : b.length ≤ n)]
      rfl

/-- Bytes written on a list of connections. -/
def wireOf (cs : List Conn) : Bytes := (cs.map fun c => c.writes.flatten).flatten

theorem wireOf_addWrite (d : Bytes) (cs : List Conn) (h : cs ≠ []) : wireOf (addWrite d cs) = wireOf cs ++ d := by
  induction cs with
  | nil => exact absurd rfl h
  | cons c r ih =>
    cases r with
    | nil => simp [addWrite, wireOf]
    | cons c' r' =>
      have := ih (by simp)
      simp only [addWrite]
      simp only [wireOf, List.map_cons, List.flatten_cons] at this ⊢
      rw [this]; simp only [List.append_assoc]

theorem addWrite_ne_nil {d : Bytes} {cs : List Conn} (h : cs ≠ []) : addWrite d cs ≠ [] := by
  cases cs with
  | nil => exact absurd rfl h
  | cons c r => cases r <;> simp [addWrite]

theorem closeLast_ne_nil {cs : List Conn} (h : cs ≠ []) : closeLast cs ≠ [] := by
  cases cs with
  | nil => exact absurd rfl h
  | cons c r => cases r <;> simp [closeLast]

theorem wireOf_closeLast (cs : List Conn) : wireOf (closeLast cs) = wireOf cs := by
  induction cs with
  | nil => rfl
  | cons c r ih =>
    cases r with
    | nil => simp [closeLast, wireOf]
    | cons c' r' =>
      simp only [closeLast]
      simp only [wireOf, List.map_cons, List.flatten_cons] at ih ⊢
      rw [ih]

theorem wireOf_new (cs : List Conn) : wireOf (cs ++ [⟨[], false⟩]) = wireOf cs := by simp [wireOf]

/-- Bytes written by the `WriteTo` in progress but still in the queue. -/
def pend : PC → Nat
  | .write _ _ n => n
  | _ => 0

/-- Does `runQueue` hold the lock there? -/
def holds : PC → Bool
  | .loop _ => true
  | .write _ _ _ => true
  | .errWrite _ _ => true
  | .unlock _ => true
  | _ => false

/-- Places where `c.output` cannot be nil. -/
def needsOut : PC → Bool
  | .lock _ => true
  | .loop _ => true
  | .write _ _ _ => true
  | .errWrite _ _ => true
  | .closeDone => true
  | .closeErr => true
  | .done => true
  | _ => false

/-- Places inside the deferred function. -/
def ending : PC → Bool
  | .select => false
  | .test f => f
  | .connect f => f
  | .errConn f _ => f
  | .lock f => f
  | .loop f => f
  | .write f _ _ => f
  | .errWrite f _ => f
  | .unlock f => f
  | .drain => true
  | .closeOut => true
  | .closeDone => true
  | .closeErr => true
  | .done => true

/-- The invariant of every history of a sender that accepted the frames `fr`. -/
structure Inv (fr : List Bytes) (s : State) : Prop where
  data : wireOf s.conns ++ s.queue.flatten.drop (pend s.pc) = fr.flatten
  pos : ∀ f k n, s.pc = .write f k n → k ≤ s.queue.length ∧ n = (s.queue.take k).flatten.length
  lock : s.locked = holds s.pc
  out : s.output = true → s.conns ≠ []
  need : needsOut s.pc = true → s.output = true
  fin : ending s.pc = true → s.endAsked = true
  comp : s.endCompleted = (decide (s.pc = .closeErr) || decide (s.pc = .done))
  errs : s.errs.length ≤ 1

theorem inv_init : Inv [] init := by
  refine ⟨rfl, ?_, rfl, ?_, ?_, ?_, rfl, ?_⟩ <;> simp [init, needsOut, ending]

theorem take_flatten_length_succ (q : List Bytes) (k : Nat) (b : Bytes) (h : q[k]? = some b) :
    (q.take (k + 1)).flatten.length = (q.take k).flatten.length + b.length := by
  rw [List.take_add_one, h]
  simp

theorem drop_take_split (q : List Bytes) (k : Nat) (b : Bytes) (h : q[k]? = some b) (nb : Nat) (hnb : nb ≤ b.length) :
    q.flatten.drop (q.take k).flatten.length = b.take nb ++ q.flatten.drop ((q.take k).flatten.length + nb) := by
  have hlt : k < q.length := by
    rcases Nat.lt_or_ge k q.length with h1 | h1
    · exact h1
    · rw [List.getElem?_eq_none h1] at h; simp at h
  have e : q = q.take k ++ b :: q.drop (k + 1) := by
    conv => lhs; rw [← List.take_append_drop k q]
    rw [List.drop_eq_getElem_cons hlt]
    congr 2
    rw [List.getElem?_eq_getElem hlt] at h
    simpa using h
  have ef : q.flatten = (q.take k).flatten ++ (b ++ (q.drop (k + 1)).flatten) := by
    conv => lhs; rw [e]
    simp
  have e1 : ∀ (A B : Bytes) (i : Nat), (A ++ B).drop (A.length + i) = B.drop i := by
    intro A B i
    rw [List.drop_append, List.drop_eq_nil_of_le (by omega), List.nil_append, Nat.add_sub_cancel_left]
  have e2 := e1 (q.take k).flatten (b ++ (q.drop (k + 1)).flatten) 0
  rw [Nat.add_zero] at e2
  rw [ef, e1, e2, List.drop_append_of_le_length hnb, ← List.append_assoc, List.take_append_drop]
  rfl

theorem frames_cons (t : Transport) (e : Event) (es : List Event) : frames t (e :: es) = frames t [e] ++ frames t es := by
  cases e with
  | send m =>
    simp only [frames]
    split <;> simp
  | _ => rfl

theorem frames_append (t : Transport) (es es' : List Event) : frames t (es ++ es') = frames t es ++ frames t es' := by
  induction es with
  | nil => rfl
  | cons e r ih => rw [List.cons_append, frames_cons, ih, frames_cons t e r, List.append_assoc]

/-- The events of `step`, as a relation. -/
inductive Tr (t : Transport) (s : State) : Event → State → Prop
  | sendOk {m : Message} {b : Bytes} : m.marshal = .ret (.ok b) → s.locked = false →
      Tr t s (.send m) { s with queue := s.queue ++ [t.encode b] }
  | sendErr {m : Message} {e : Err} : m.marshal = .ret (.error e) → Tr t s (.send m) s
  | sendPanic {m : Message} : m.marshal = .panic → Tr t s (.send m) { s with crashed := true }
  | endTwice : s.endAsked = true → Tr t s .endCall { s with crashed := true }
  | endOnce : s.endAsked = false → Tr t s .endCall { s with endAsked := true }
  | recv {e : SErr} {r : List SErr} : s.errs = e :: r → Tr t s (.recvErr e) { s with errs := r }
  | tick : s.pc = .select → Tr t s .tick { s with pc := .test false }
  | seeEnd : s.pc = .select → s.endAsked = true → Tr t s .seeEnd { s with pc := .drain }
  | testOut {f : Bool} : s.pc = .test f → s.output = true → Tr t s .tau { s with pc := .lock f }
  | testNil {f : Bool} : s.pc = .test f → s.output = false → Tr t s .tau { s with pc := .connect f }
  | connOk {f : Bool} : s.pc = .connect f →
      Tr t s (.connect none) { s with output := true, conns := s.conns ++ [⟨[], false⟩], pc := .lock f }
  | connErr {f : Bool} {e : Nat} : s.pc = .connect f → Tr t s (.connect (some e)) { s with pc := .errConn f (.connect e) }
  | errConn {f : Bool} {e : SErr} : s.pc = .errConn f e → s.errs = [] → Tr t s .tau { s with errs := s.errs ++ [e], pc := ret f }
  | lock {f : Bool} : s.pc = .lock f → s.locked = false → Tr t s .tau { s with locked := true, pc := .loop f }
  | loopMore {f : Bool} : s.pc = .loop f → s.queue ≠ [] → Tr t s .tau { s with pc := .write f 0 0 }
  | loopEnd {f : Bool} : s.pc = .loop f → s.queue = [] → Tr t s .tau { s with pc := .unlock f }
  | writeEnd {f : Bool} {k n : Nat} : s.pc = .write f k n → s.queue.length ≤ k →
      Tr t s .tau { s with queue := consume s.queue n, pc := .loop f }
  | writeOk {f : Bool} {k n : Nat} {b : Bytes} : s.pc = .write f k n → s.queue[k]? = some b →
      Tr t s (.write b.length none) { s with conns := addWrite b s.conns, pc := .write f (k + 1) (n + b.length) }
  | writeNobufs {f : Bool} {k n nb : Nat} {b : Bytes} : s.pc = .write f k n → s.queue[k]? = some b → nb ≤ b.length →
      Tr t s (.write nb (some .nobufs))
        { s with conns := addWrite (b.take nb) s.conns, queue := consume s.queue (n + nb), pc := .unlock f }
  | writeErr {f : Bool} {k n nb e : Nat} {b : Bytes} : s.pc = .write f k n → s.queue[k]? = some b → nb ≤ b.length →
      Tr t s (.write nb (some (.other e)))
        { s with conns := addWrite (b.take nb) s.conns, queue := consume s.queue (n + nb), pc := .errWrite f (.write e) }
  | errWrite {f : Bool} {e : SErr} : s.pc = .errWrite f e → s.errs = [] →
      Tr t s .tau { s with errs := s.errs ++ [e], output := false, pc := .unlock f }
  | unlock {f : Bool} : s.pc = .unlock f → Tr t s .tau { s with locked := false, pc := ret f }
  | drainMore : s.pc = .drain → s.queue ≠ [] → Tr t s .tau { s with pc := .test true }
  | drainEnd : s.pc = .drain → s.queue = [] → Tr t s .tau { s with pc := .closeOut }
  | closeOut : s.pc = .closeOut → s.output = true → Tr t s .tau { s with conns := closeLast s.conns, pc := .closeDone }
  | closeNil : s.pc = .closeOut → s.output = false → Tr t s .tau { s with crashed := true }
  | closeDone : s.pc = .closeDone → Tr t s .tau { s with endCompleted := true, pc := .closeErr }
  | closeErr : s.pc = .closeErr → Tr t s .tau { s with errClosed := true, pc := .done }

theorem step_tr {t : Transport} {s s' : State} {e : Event} (hs : step t s e = some s') : s.crashed = false ∧ Tr t s e s' := by
  have hcr : s.crashed = false := by
    cases h : s.crashed with
    | false => rfl
    | true => simp [step, h] at hs
  refine ⟨hcr, ?_⟩
  obtain ⟨queue, conns, output, locked, errs, endAsked, endCompleted, errClosed, crashed, pc⟩ := s
  simp only at hcr
  subst hcr
  cases e with
  | send m =>
    simp only [step, Bool.false_eq_true, if_false] at hs
    split at hs
    · rename_i b hb
      split at hs
      · simp at hs
      · rename_i hl
        simp only [Option.some.injEq] at hs; subst hs; exact .sendOk hb (by simpa using hl)
    · rename_i e he; simp only [Option.some.injEq] at hs; subst hs; exact .sendErr he
    · rename_i he; simp only [Option.some.injEq] at hs; subst hs; exact .sendPanic he
    · simp at hs
  | endCall =>
    simp only [step, Bool.false_eq_true, if_false] at hs
    split at hs <;> rename_i he <;> simp only [Option.some.injEq] at hs <;> subst hs
    · exact .endTwice he
    · exact .endOnce (by simpa using he)
  | recvErr e =>
    simp only [step, Bool.false_eq_true, if_false] at hs
    split at hs
    · simp at hs
    · split at hs
      · rename_i heq
        subst heq
        simp only [Option.some.injEq] at hs; subst hs; exact .recv rfl
      · simp at hs
  | tick => cases pc <;> simp [step] at hs; subst hs; exact .tick rfl
  | seeEnd => cases pc <;> simp [step] at hs; obtain ⟨he, hs⟩ := hs; subst hs; exact .seeEnd rfl he
  | connect r =>
    cases r <;> cases pc <;> simp [step] at hs <;> subst hs
    · exact .connOk rfl
    · exact .connErr rfl
  | write nb r =>
    cases pc <;> simp only [step, Bool.false_eq_true, if_false, reduceCtorEq] at hs
    split at hs
    · simp at hs
    · rename_i b hb
      split at hs
      · rename_i hle
        rcases r with _ | (_ | e)
        · simp only at hs
          split at hs
          · rename_i hfull
            subst hfull
            simp only [Option.some.injEq, List.take_length] at hs; subst hs; exact .writeOk rfl hb
          · simp at hs
        · simp only [Option.some.injEq] at hs; subst hs; exact .writeNobufs rfl hb hle
        · simp only [Option.some.injEq] at hs; subst hs; exact .writeErr rfl hb hle
      · simp at hs
  | tau =>
    cases pc <;> simp [step] at hs
    case closeOut =>
      split at hs <;> rename_i ho <;> simp only [Option.some.injEq] at hs <;> subst hs
      · exact .closeOut rfl ho
      · exact .closeNil rfl (by simpa using ho)
    case test =>
      subst hs
      cases output with
      | true => exact .testOut rfl rfl
      | false => exact .testNil rfl rfl
    case loop =>
      subst hs
      by_cases hq : queue = []
      · subst hq; exact .loopEnd rfl rfl
      · rw [if_pos (by exact List.length_pos_iff.mpr hq)]; exact .loopMore rfl hq
    case unlock => subst hs; exact .unlock rfl
    case drain =>
      subst hs
      by_cases hq : queue = []
      · subst hq; exact .drainEnd rfl rfl
      · rw [if_pos (by exact List.length_pos_iff.mpr hq)]; exact .drainMore rfl hq
    case closeDone => subst hs; exact .closeDone rfl
    case closeErr => subst hs; exact .closeErr rfl
    case errConn => obtain ⟨h, hs⟩ := hs; subst hs; exact .errConn rfl h
    case errWrite => obtain ⟨h, hs⟩ := hs; subst hs; exact .errWrite rfl h
    case lock => obtain ⟨h, hs⟩ := hs; subst hs; exact .lock rfl h
    case write => obtain ⟨h, hs⟩ := hs; subst hs; exact .writeEnd rfl h

/-- The invariant is kept by every event. -/
theorem inv_step {t : Transport} {fr : List Bytes} {s s' : State} {e : Event} (h : Inv fr s) (hs : step t s e = some s') :
    Inv (fr ++ frames t [e]) s' := by
  obtain ⟨data, pos, lock, out, need, fin, comp, errs⟩ := h
  obtain ⟨queue, conns, output, locked, es, endAsked, endCompleted, errClosed, crashed, pc⟩ := s
  simp only at data pos lock out need fin comp errs
  have hcr : crashed = false := by
    cases crashed with
    | false => rfl
    | true => simp [step] at hs
  subst hcr
  cases e with
  | send m =>
    simp only [step, Bool.false_eq_true, if_false] at hs
    simp only [frames]
    split at hs
    · rename_i b hb
      split at hs
      · simp at hs
      · rename_i hl
        simp only [Option.some.injEq] at hs
        subst hs
        rw [hb]
        have hp : pend pc = 0 := by
          cases pc <;> simp_all [holds, pend]
        rw [hp] at data
        refine ⟨?_, ?_, lock, out, need, fin, comp, errs⟩
        · simp only [hp, List.drop_zero] at data ⊢
          rw [List.flatten_append, ← List.append_assoc, data, List.flatten_append]
        · intro f k n hpc
          simp only at hpc
          subst hpc
          simp [holds] at lock
          exact absurd lock hl
    · rename_i e he
      simp only [Option.some.injEq] at hs
      subst hs
      rw [he]
      simpa using ⟨data, pos, lock, out, need, fin, comp, errs⟩
    · rename_i he
      simp only [Option.some.injEq] at hs
      subst hs
      rw [he]
      simpa using ⟨data, pos, lock, out, need, fin, comp, errs⟩
    · simp at hs
  | endCall =>
    simp only [step, Bool.false_eq_true, if_false] at hs
    simp only [frames, List.append_nil]
    split at hs <;> simp only [Option.some.injEq] at hs <;> subst hs
    · exact ⟨data, pos, lock, out, need, fin, comp, errs⟩
    · exact ⟨data, pos, lock, out, need, fun _ => rfl, comp, errs⟩
  | recvErr err =>
    simp only [step, Bool.false_eq_true, if_false] at hs
    simp only [frames, List.append_nil]
    cases es with
    | nil => simp at hs
    | cons x r =>
      simp only at hs
      split at hs
      case isFalse => simp at hs
      simp only [Option.some.injEq] at hs
      subst hs
      refine ⟨data, pos, lock, out, need, fin, comp, ?_⟩
      simp only [List.length_cons] at errs ⊢
      omega
  | tick =>
    simp only [frames, List.append_nil]
    cases pc <;> simp [step] at hs
    subst hs
    exact ⟨data, by simp, lock, out, by simp [needsOut], by simp [ending], by simp_all, errs⟩
  | seeEnd =>
    simp only [frames, List.append_nil]
    cases pc <;> simp [step] at hs
    obtain ⟨ha, hs⟩ := hs
    subst hs
    exact ⟨data, by simp, lock, out, by simp [needsOut], fun _ => ha, by simp_all, errs⟩
  | connect r =>
    simp only [frames, List.append_nil]
    cases r with
    | none =>
      cases pc <;> simp [step] at hs
      subst hs
      refine ⟨?_, by simp, lock, by simp, by simp, fin, by simp_all, errs⟩
      simp only [wireOf_new, pend] at data ⊢
      exact data
    | some e =>
      cases pc <;> simp [step] at hs
      subst hs
      exact ⟨data, by simp, lock, out, by simp [needsOut], fin, by simp_all, errs⟩
  | write nb r =>
    simp only [frames, List.append_nil]
    cases pc <;> simp only [step, Bool.false_eq_true, if_false, reduceCtorEq] at hs
    rename_i f k n
    obtain ⟨hk, hn⟩ := pos f k n rfl
    split at hs
    · simp at hs
    · rename_i b hb
      by_cases hle : nb ≤ b.length
      · rw [if_pos hle] at hs
        have hout : output = true := need rfl
        have hc := out hout
        have hsplit := drop_take_split queue k b hb nb hle
        rw [← hn] at hsplit
        have hw : wireOf (addWrite (b.take nb) conns) ++ queue.flatten.drop (n + nb) = fr.flatten := by
          rw [wireOf_addWrite _ _ hc, List.append_assoc, ← hsplit]
          exact data
        have hklt : k < queue.length := by
          rcases Nat.lt_or_ge k queue.length with h1 | h1
          · exact h1
          · rw [List.getElem?_eq_none h1] at hb; simp at hb
        rcases r with _ | (_ | e)
        · simp only at hs
          split at hs
          · rename_i hfull
            simp only [Option.some.injEq] at hs
            subst hs
            refine ⟨hw, ?_, lock, fun _ => addWrite_ne_nil hc, fun _ => hout, fin, by simp_all, errs⟩
            intro f' k' n' he
            simp only [PC.write.injEq] at he
            obtain ⟨_, rfl, rfl⟩ := he
            refine ⟨hklt, ?_⟩
            show n + nb = _
            rw [take_flatten_length_succ queue k b hb, hn, hfull]
          · simp at hs
        · simp only [Option.some.injEq] at hs
          subst hs
          refine ⟨?_, by simp, lock, fun _ => addWrite_ne_nil hc, by simp [needsOut], fin, by simp_all, errs⟩
          simp only [pend, List.drop_zero]
          rw [consume_flatten]; exact hw
        · simp only [Option.some.injEq] at hs
          subst hs
          refine ⟨?_, by simp, lock, fun _ => addWrite_ne_nil hc, fun _ => hout, fin, by simp_all, errs⟩
          simp only [pend, List.drop_zero]
          rw [consume_flatten]; exact hw
      · rw [if_neg hle] at hs; simp at hs
  | tau =>
    simp only [frames, List.append_nil]
    cases pc with
    | select => simp [step] at hs
    | done => simp [step] at hs
    | connect f => simp [step] at hs
    | test f =>
      simp [step] at hs
      subst hs
      cases output with
      | true => exact ⟨data, by simp, lock, out, by simp, fin, by simp_all, errs⟩
      | false => exact ⟨data, by simp, lock, out, by simp [needsOut], fin, by simp_all, errs⟩
    | errConn f e =>
      simp [step] at hs
      obtain ⟨he, hs⟩ := hs
      subst hs
      subst he
      cases f with
      | true => exact ⟨data, by simp [ret], lock, out, by simp [needsOut, ret], fin, by simp_all [ret], by simp⟩
      | false => exact ⟨data, by simp [ret], lock, out, by simp [needsOut, ret], by simp [ending, ret], by simp_all [ret], by simp⟩
    | lock f =>
      simp [step] at hs
      obtain ⟨he, hs⟩ := hs
      subst hs
      exact ⟨data, by simp, rfl, out, need, fin, by simp_all, errs⟩
    | loop f =>
      simp [step] at hs
      subst hs
      have hout : output = true := need rfl
      split
      · refine ⟨data, ?_, lock, out, fun _ => hout, fin, by simp_all, errs⟩
        intro f' k' n' he
        simp only [PC.write.injEq] at he
        obtain ⟨_, rfl, rfl⟩ := he
        simp
      · exact ⟨data, by simp, lock, out, by simp [needsOut], fin, by simp_all, errs⟩
    | write f k n =>
      simp [step] at hs
      obtain ⟨he, hs⟩ := hs
      subst hs
      refine ⟨?_, by simp, lock, out, need, fin, by simp_all, errs⟩
      simp only [pend, List.drop_zero]
      rw [consume_flatten]; exact data
    | errWrite f e =>
      simp [step] at hs
      obtain ⟨he, hs⟩ := hs
      subst hs
      subst he
      exact ⟨data, by simp, lock, by simp, by simp [needsOut], fin, by simp_all, by simp⟩
    | unlock f =>
      simp [step] at hs
      subst hs
      cases f with
      | true => exact ⟨data, by simp [ret], rfl, out, by simp [needsOut, ret], fin, by simp_all [ret], errs⟩
      | false => exact ⟨data, by simp [ret], rfl, out, by simp [needsOut, ret], by simp [ending, ret], by simp_all [ret], errs⟩
    | drain =>
      simp [step] at hs
      subst hs
      split
      · exact ⟨data, by simp, lock, out, by simp [needsOut], fun _ => fin rfl, by simp_all, errs⟩
      · exact ⟨data, by simp, lock, out, by simp [needsOut], fun _ => fin rfl, by simp_all, errs⟩
    | closeOut =>
      simp [step] at hs
      split at hs
      · rename_i ho
        simp only [Option.some.injEq] at hs
        subst hs
        refine ⟨?_, by simp, lock, fun _ => closeLast_ne_nil (out ho), fun _ => ho, fun _ => fin rfl, by simp_all, errs⟩
        rw [wireOf_closeLast]; exact data
      · simp only [Option.some.injEq] at hs
        subst hs
        exact ⟨data, by simp, lock, out, need, fin, comp, errs⟩
    | closeDone =>
      simp [step] at hs
      subst hs
      exact ⟨data, by simp, lock, out, need, fun _ => fin rfl, by simp_all, errs⟩
    | closeErr =>
      simp [step] at hs
      subst hs
      exact ⟨data, by simp, lock, out, need, fun _ => fin rfl, by simp_all, errs⟩

theorem run_append {t : Transport} {s s' s'' : State} {es es' : List Event} (h1 : run t s es = some s')
    (h2 : run t s' es' = some s'') : run t s (es ++ es') = some s'' := by
  induction es generalizing s with
  | nil => simp only [run, Option.some.injEq] at h1; subst h1; exact h2
  | cons e r ih =>
    simp only [run, List.cons_append] at h1 ⊢
    cases hst : step t s e with
    | none => rw [hst] at h1; simp at h1
    | some x => rw [hst] at h1; exact ih h1

theorem run_split {t : Transport} {s s'' : State} {es es' : List Event} (h : run t s (es ++ es') = some s'') :
    ∃ s', run t s es = some s' ∧ run t s' es' = some s'' := by
  induction es generalizing s with
  | nil => exact ⟨s, rfl, h⟩
  | cons e r ih =>
    simp only [run, List.cons_append] at h ⊢
    cases hst : step t s e with
    | none => rw [hst] at h; simp at h
    | some x => rw [hst] at h; exact ih h

theorem inv_run {t : Transport} {fr : List Bytes} {s s' : State} {es : List Event} (h : Inv fr s) (hs : run t s es = some s') :
    Inv (fr ++ frames t es) s' := by
  induction es generalizing s fr with
  | nil => simp only [run, Option.some.injEq] at hs; subst hs; simpa [frames] using h
  | cons e r ih =>
    simp only [run] at hs
    cases hst : step t s e with
    | none => rw [hst] at hs; simp at hs
    | some x =>
      rw [hst] at hs
      have := ih (inv_step h hst) hs
      rw [frames_cons, ← List.append_assoc]; exact this

theorem inv_history {t : Transport} {s : State} {es : List Event} (h : History t es s) : Inv (frames t es) s := by
  simpa using inv_run inv_init h

/-- What is written is never taken back. -/
theorem step_wire {t : Transport} {s s' : State} {e : Event} (hs : step t s e = some s') :
    wireOf s.conns <+: wireOf s'.conns := by
  by_cases hc : s.conns = []
  · simp [hc, wireOf]
  obtain ⟨queue, conns, output, locked, es, endAsked, endCompleted, errClosed, crashed, pc⟩ := s
  simp only at hc ⊢
  have hcr : crashed = false := by
    cases crashed with
    | false => rfl
    | true => simp [step] at hs
  subst hcr
  cases e with
  | send m =>
    simp only [step, Bool.false_eq_true, if_false] at hs
    split at hs
    · split at hs
      · simp at hs
      · simp only [Option.some.injEq] at hs; subst hs; exact List.prefix_refl _
    · simp only [Option.some.injEq] at hs; subst hs; exact List.prefix_refl _
    · simp only [Option.some.injEq] at hs; subst hs; exact List.prefix_refl _
    · simp at hs
  | endCall =>
    simp only [step, Bool.false_eq_true, if_false] at hs
    split at hs <;> simp only [Option.some.injEq] at hs <;> subst hs <;> exact List.prefix_refl _
  | recvErr e =>
    simp only [step, Bool.false_eq_true, if_false] at hs
    split at hs
    · simp at hs
    · split at hs
      · simp only [Option.some.injEq] at hs; subst hs; exact List.prefix_refl _
      · simp at hs
  | tick => cases pc <;> simp [step] at hs; subst hs; exact List.prefix_refl _
  | seeEnd => cases pc <;> simp [step] at hs; obtain ⟨_, hs⟩ := hs; subst hs; exact List.prefix_refl _
  | connect r =>
    cases r <;> cases pc <;> simp [step] at hs <;> subst hs
    · simp only [wireOf_new]; exact List.prefix_refl _
    · exact List.prefix_refl _
  | write nb r =>
    cases pc <;> simp only [step, Bool.false_eq_true, if_false, reduceCtorEq] at hs
    split at hs
    · simp at hs
    · split at hs
      · rcases r with _ | (_ | e)
        · simp only at hs
          split at hs
          · simp only [Option.some.injEq] at hs; subst hs; simp only [wireOf_addWrite _ _ hc]; exact List.prefix_append _ _
          · simp at hs
        · simp only [Option.some.injEq] at hs; subst hs; simp only [wireOf_addWrite _ _ hc]; exact List.prefix_append _ _
        · simp only [Option.some.injEq] at hs; subst hs; simp only [wireOf_addWrite _ _ hc]; exact List.prefix_append _ _
      · simp at hs
  | tau =>
    cases pc <;> simp [step] at hs
    case closeOut =>
      split at hs <;> simp only [Option.some.injEq] at hs <;> subst hs
      · simp only [wireOf_closeLast]; exact List.prefix_refl _
      · exact List.prefix_refl _
    case test => subst hs; exact List.prefix_refl _
    case loop => subst hs; exact List.prefix_refl _
    case unlock => subst hs; exact List.prefix_refl _
    case drain => subst hs; exact List.prefix_refl _
    case closeDone => subst hs; exact List.prefix_refl _
    case closeErr => subst hs; exact List.prefix_refl _
    all_goals (obtain ⟨_, hs⟩ := hs; subst hs; exact List.prefix_refl _)

theorem run_wire {t : Transport} {s s' : State} {es : List Event} (hs : run t s es = some s') :
    wireOf s.conns <+: wireOf s'.conns := by
  induction es generalizing s with
  | nil => simp only [run, Option.some.injEq] at hs; subst hs; exact List.prefix_refl _
  | cons e r ih =>
    simp only [run] at hs
    cases hst : step t s e with
    | none => rw [hst] at hs; simp at hs
    | some x => rw [hst] at hs; exact (step_wire hst).trans (ih hs)

/-- Induction over a run. -/
theorem run_induct {t : Transport} {P : State → Prop} {s s' : State} {es : List Event} (hs : run t s es = some s')
    (h0 : P s) (hstep : ∀ s1 e s2, e ∈ es → P s1 → step t s1 e = some s2 → P s2) : P s' := by
  induction es generalizing s with
  | nil => simp only [run, Option.some.injEq] at hs; subst hs; exact h0
  | cons e r ih =>
    simp only [run] at hs
    cases hst : step t s e with
    | none => rw [hst] at hs; simp at hs
    | some x =>
      rw [hst] at hs
      exact ih hs (hstep s e x (by simp) h0 hst) (fun s1 e' s2 he' => hstep s1 e' s2 (by simp [he']))

end Syslog5424.Sender
