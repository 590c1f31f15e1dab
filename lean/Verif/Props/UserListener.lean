import Verif.Spec.UserListener
import Verif.Props.Receiver
/-! # C108: a receiver with any listener -/
namespace Syslog5424
open Spec Recv

theorem urun_snoc (t : Transport) (q : Nat) (u : UState) (es : List UEvent) (e : UEvent) :
    urun t q u (es ++ [e]) = (urun t q u es).bind fun u' => ustep t q u' e := by
  induction es generalizing u with
  | nil => simp [urun]
  | cons a es ih =>
    simp only [List.cons_append, urun]
    cases ustep t q u a with
    | none => rfl
    | some u' => simpa using ih u'

/-- The state of the receiver with a listener of the package that corresponds. -/
def plain (u : UState) : State :=
  { u.s with errs := 0, pc := if u.s.pc = .errSend ∧ u.withConn then .accept else u.s.pc }

theorem recvRun_append (t : Transport) (q : Nat) (s : State) (es es' : List Event) :
    run t q s (es ++ es') = (run t q s es).bind fun s' => run t q s' es' := by
  induction es generalizing s with
  | nil => simp [run]
  | cons a es ih =>
    simp only [List.cons_append, run]
    cases step t q s a with
    | none => rfl
    | some s' => simpa using ih s'

theorem plain_crashed (u : UState) : (plain u).crashed = u.s.crashed := rfl

/-- Events that look neither at the errors nor at where `runQueue` is. -/
def elsewhere : Event → Bool
  | .read _ _ | .sendMsg _ | .close _ | .recv | .handoff _ | .recvClosed | .endCall => true
  | _ => false

/-- Events that look neither at the errors nor at where `runQueue` is. -/
theorem step_plain {t : Transport} {q : Nat} {s s' : State} {e : Event} (pc : PC) (h : step t q s e = some s') (hc : s'.crashed = false)
    (he : elsewhere e = true) :
    step t q { s with errs := 0, pc := pc } e = some { s' with errs := 0, pc := pc } ∧ s'.pc = s.pc := by
  have hnc := step_not_crashed h
  unfold step at h ⊢
  rw [if_neg (by simp [hnc])] at h
  rw [if_neg (by simp [hnc])]
  cases e with
  | read i r =>
    simp only at h ⊢
    cases hi : s.conns[i]? with
    | none => rw [hi] at h; simp at h
    | some c =>
      rw [hi] at h
      simp only at h ⊢
      split at h
      · next g =>
        rw [if_pos g]
        split at h
        · next b tok hs => simp only [Option.some.injEq] at h; subst h; exact ⟨rfl, rfl⟩
        · simp only [Option.some.injEq] at h; subst h; simp at hc
        · simp at h
      · simp at h
  | sendMsg i =>
    simp only at h ⊢
    cases hi : s.conns[i]? with
    | none => rw [hi] at h; simp at h
    | some c =>
      rw [hi] at h
      simp only at h ⊢
      split at h
      · simp at h
      · next d r hp =>
        split at h
        · simp at h
        · next g =>
          rw [if_neg g]
          split at h
          · simp only [Option.some.injEq] at h; subst h; simp at hc
          · next g2 =>
            rw [if_neg g2]
            split at h
            · next g3 => rw [if_pos g3]; simp only [Option.some.injEq] at h; subst h; exact ⟨rfl, rfl⟩
            · simp at h
  | close i =>
    simp only at h ⊢
    cases hi : s.conns[i]? with
    | none => rw [hi] at h; simp at h
    | some c =>
      rw [hi] at h
      simp only at h ⊢
      split at h
      · next g => rw [if_pos g]; simp only [Option.some.injEq] at h; subst h; exact ⟨rfl, rfl⟩
      · simp at h
  | recv =>
    simp only at h ⊢
    split at h
    · simp at h
    · next x r hx => simp only [Option.some.injEq] at h; subst h; exact ⟨rfl, rfl⟩
  | handoff i =>
    simp only at h ⊢
    cases hi : s.conns[i]? with
    | none => rw [hi] at h; simp at h
    | some c =>
      rw [hi] at h
      simp only at h ⊢
      split at h
      · simp at h
      · next d r hp =>
        split at h
        · simp at h
        · next g => rw [if_neg g]; simp only [Option.some.injEq] at h; subst h; exact ⟨rfl, rfl⟩
  | recvClosed =>
    simp only at h ⊢
    split at h
    · next g => rw [if_pos g]; simp only [Option.some.injEq] at h; subst h; exact ⟨rfl, rfl⟩
    · simp at h
  | endCall =>
    simp only at h ⊢
    split at h
    · simp only [Option.some.injEq] at h; subst h; simp at hc
    · next g => rw [if_neg g]; simp only [Option.some.injEq] at h; subst h; exact ⟨rfl, rfl⟩
  | _ => simp [elsewhere] at he

/-- One step. -/
theorem plain_step {t : Transport} {q : Nat} {u u' : UState} {e : UEvent} (hw : u.withConn = true → u.s.pc = .errSend) (h : ustep t q u e = some u')
    (hc : u'.s.crashed = false) :
    (u'.withConn = true → u'.s.pc = .errSend) ∧
    ∃ es, run t q (plain u) es = some (plain u') ∧ ∀ i, readsOf i es = readsOf i (standardOf [e]) := by
  obtain ⟨s, w⟩ := u
  have hnc : s.crashed = false := by
    unfold ustep at h
    cases hx : s.crashed with
    | false => rfl
    | true => simp [hx] at h
  have std : ∀ e : Event, elsewhere e = true →
      ∀ u', (step t q s e).map (fun s => (⟨s, w⟩ : UState)) = some u' → u'.s.crashed = false →
      (u'.withConn = true → u'.s.pc = .errSend) ∧
      ∃ es, run t q (plain ⟨s, w⟩) es = some (plain u') ∧ ∀ i, readsOf i es = readsOf i (standardOf [.std e]) := by
    intro e he u' h hc
    rw [Option.map_eq_some_iff] at h
    obtain ⟨s', hs, rfl⟩ := h
    obtain ⟨h1, h2⟩ := step_plain (if s.pc = .errSend ∧ w = true then .accept else s.pc) hs hc he
    refine ⟨fun hw' => by rw [h2]; exact hw hw', [e], ?_, fun i => rfl⟩
    simp only [run, plain, h1, h2, Option.bind_some]
  unfold ustep at h
  rw [if_neg (by simp [hnc])] at h
  cases e with
  | both =>
    simp only at h
    split at h
    · next g =>
      simp only [Option.some.injEq] at h; subst h
      refine ⟨fun _ => rfl, [], ?_, fun i => rfl⟩
      simp [run, plain, g]
    · simp at h
  | neither =>
    simp only at h
    split at h
    · next g =>
      simp only [Option.some.injEq] at h; subst h
      have hwf : w = false := by
        cases w with
        | false => rfl
        | true => have := hw rfl; rw [g] at this; simp at this
      subst hwf
      refine ⟨fun h => by simp at h, [.acceptErr, .tau, .recvErr], ?_, fun i => rfl⟩
      simp [run, step, plain, g, hnc, errCap]
    · simp at h
  | over i =>
    simp only at h
    cases hi : s.conns[i]? with
    | none => rw [hi] at h; simp at h
    | some c =>
      rw [hi] at h
      simp only at h
      split at h
      · simp only [Option.some.injEq] at h; subst h; simp at hc
      · simp at h
  | std e =>
    cases e with
    | tau =>
      simp only at h
      split at h
      · next g =>
        split at h
        · simp only [Option.some.injEq] at h; subst h
          refine ⟨fun h => by simp at h, [.acceptOk], ?_, fun i => rfl⟩
          simp [run, step, plain, g, hnc]
        · simp at h
      · next g =>
        rw [Option.map_eq_some_iff] at h
        obtain ⟨s', hs, rfl⟩ := h
        have hwf : w = false := by
          cases w with
          | false => rfl
          | true => exact absurd ⟨hw rfl, rfl⟩ g
        subst hwf
        refine ⟨fun h => by simp at h, ?_⟩
        unfold step at hs
        rw [if_neg (by simp [hnc])] at hs
        simp only at hs
        split at hs
        · next hp =>
          simp only [Option.some.injEq] at hs; subst hs
          refine ⟨[.tau], ?_, fun i => rfl⟩
          simp [run, step, plain, hp, hnc]
        · next hp =>
          split at hs
          · simp only [Option.some.injEq] at hs; subst hs
            refine ⟨[.tau, .recvErr], ?_, fun i => rfl⟩
            simp [run, step, plain, hp, hnc, errCap]
          · simp at hs
        · next hp =>
          simp only [Option.some.injEq] at hs; subst hs
          refine ⟨[.tau], ?_, fun i => rfl⟩
          simp [run, step, plain, hp, hnc]
        · next hp =>
          simp only [Option.some.injEq] at hs; subst hs
          refine ⟨[.tau], ?_, fun i => rfl⟩
          simp [run, step, plain, hp, hnc]
        · simp at hs
    | acceptOk =>
      simp only [Option.map_eq_some_iff] at h
      obtain ⟨s', hs, rfl⟩ := h
      unfold step at hs
      rw [if_neg (by simp [hnc])] at hs
      simp only at hs
      split at hs
      · next g =>
        simp only [Option.some.injEq] at hs; subst hs
        have hwf : w = false := by
          cases w with
          | false => rfl
          | true => have := hw rfl; rw [g] at this; simp at this
        subst hwf
        refine ⟨fun h => by simp at h, [.acceptOk], ?_, fun i => rfl⟩
        simp [run, step, plain, g, hnc]
      · simp at hs
    | acceptErr =>
      simp only [Option.map_eq_some_iff] at h
      obtain ⟨s', hs, rfl⟩ := h
      unfold step at hs
      rw [if_neg (by simp [hnc])] at hs
      simp only at hs
      split at hs
      · next g =>
        simp only [Option.some.injEq] at hs; subst hs
        have hwf : w = false := by
          cases w with
          | false => rfl
          | true => have := hw rfl; rw [g] at this; simp at this
        subst hwf
        refine ⟨fun h => by simp at h, [.acceptErr], ?_, fun i => rfl⟩
        simp [run, step, plain, g, hnc]
      · simp at hs
    | nilStart =>
      simp only [Option.map_eq_some_iff] at h
      obtain ⟨s', hs, rfl⟩ := h
      unfold step at hs
      rw [if_neg (by simp [hnc])] at hs
      simp only at hs
      split at hs
      · simp only [Option.some.injEq] at hs; subst hs; simp at hc
      · simp at hs
    | recvErr =>
      simp only [Option.map_eq_some_iff] at h
      obtain ⟨s', hs, rfl⟩ := h
      unfold step at hs
      rw [if_neg (by simp [hnc])] at hs
      simp only at hs
      split at hs
      · simp only [Option.some.injEq] at hs; subst hs
        refine ⟨hw, [], ?_, fun i => rfl⟩
        simp [run, plain]
      · simp at hs
    | sendErr i =>
      simp only [Option.map_eq_some_iff] at h
      obtain ⟨s', hs, rfl⟩ := h
      unfold step at hs
      rw [if_neg (by simp [hnc])] at hs
      simp only at hs
      cases hi : s.conns[i]? with
      | none => rw [hi] at hs; simp at hs
      | some c =>
        rw [hi] at hs
        simp only at hs
        split at hs
        · next g =>
          simp only [Option.some.injEq] at hs; subst hs
          refine ⟨hw, [.sendErr i, .recvErr], ?_, fun i => rfl⟩
          simp [run, step, plain, hnc, hi, g.1, errCap, State.setConn]
        · simp at hs
    | _ => exact std _ rfl u' h hc

/-- **C108.** A receiver works with any listener as with those of the package. Whatever `Accept` returns (a connection together with an error, or
neither, too), as long as the program has not crashed, every history has the connections, the queue, and what `Receive` has returned in
common with a history of a receiver with a listener that returns a connection or an error, and whose connections return the same bytes;
so whatever is proved of `Recv.run` holds here. -/
theorem C108_same_partial (t : Transport) (lenQueue : Nat) (es : List UEvent) (u : UState) (h : urun t lenQueue uinit es = some u) (hc : u.s.crashed = false) :
    ∃ es' s, run t lenQueue init es' = some s ∧ s.crashed = false ∧ s.conns = u.s.conns ∧ s.pipeline = u.s.pipeline ∧
      s.pipelineClosed = u.s.pipelineClosed ∧ s.ended = u.s.ended ∧ s.got = u.s.got ∧ s.nilConns = u.s.nilConns ∧
      ∀ i, readsOf i es' = readsOf i (standardOf es) := by
  have key : ∀ (n : Nat) (es : List UEvent), es.length = n → ∀ u, urun t lenQueue uinit es = some u → u.s.crashed = false →
      (u.withConn = true → u.s.pc = .errSend) ∧ ∃ es', run t lenQueue init es' = some (plain u) ∧ ∀ i, readsOf i es' = readsOf i (standardOf es) := by
    intro n
    induction n with
    | zero =>
      intro es hn u h hc
      rw [List.length_eq_zero_iff] at hn
      subst hn
      simp only [urun, Option.some.injEq] at h
      subst h
      exact ⟨fun h => by simp [uinit] at h, [], rfl, fun i => rfl⟩
    | succ n ih =>
      intro es hn u h hc
      obtain ⟨l, e, rfl⟩ : ∃ l e, es = l ++ [e] := ⟨es.dropLast, es.getLast (by rintro rfl; simp at hn), (List.dropLast_concat_getLast _).symm⟩
      rw [urun_snoc] at h
      cases hl : urun t lenQueue uinit l with
      | none => rw [hl] at h; simp at h
      | some v =>
        rw [hl] at h
        simp only [Option.bind_some] at h
        have hv : v.s.crashed = false := by
          unfold ustep at h
          cases hx : v.s.crashed with
          | false => rfl
          | true => simp [hx] at h
        obtain ⟨g1, es1, g2, g3⟩ := ih l (by simp at hn; exact hn) v hl hv
        obtain ⟨k1, es2, k2, k3⟩ := plain_step g1 h hc
        refine ⟨k1, es1 ++ es2, ?_, ?_⟩
        · rw [recvRun_append, g2]; exact k2
        · intro i
          have e1 : readsOf i (es1 ++ es2) = readsOf i es1 ++ readsOf i es2 := by simp [readsOf]
          have e2 : standardOf (l ++ [e]) = standardOf l ++ standardOf [e] := by simp [standardOf]
          have e3 : readsOf i (standardOf l ++ standardOf [e]) = readsOf i (standardOf l) ++ readsOf i (standardOf [e]) := by simp [readsOf]
          rw [e1, e2, e3, g3, k3]
  obtain ⟨_, es', h1, h2⟩ := key es.length es rfl u h hc
  exact ⟨es', plain u, h1, hc, rfl, rfl, rfl, rfl, rfl, rfl, h2⟩

/-- **C108**, the order: what `Receive` has returned from a connection, followed by what waits in the queue and by what its goroutine is about to send, is
exactly what the calls of `Read` on that connection decode to, whatever the listener returns. -/
theorem C108_order_partial (t : Transport) (lenQueue : Nat) (es : List UEvent) (u : UState) (h : urun t lenQueue uinit es = some u) (hc : u.s.crashed = false)
    (i : Nat) (c : Conn) (hi : u.s.conns[i]? = some c) :
    ∃ b tok, Tok.Run t Tok.init (readsOf i (standardOf es)) (.ret (b, tok)) ∧ ofConn i u.s.got ++ ofConn i u.s.pipeline ++ c.pending = tok.out := by
  obtain ⟨es', s, h1, h2, h3, h4, _, _, h5, _, h6⟩ := C108_same_partial t lenQueue es u h hc
  have := C44_order t lenQueue es' s h1 h2 i c (by rw [h3]; exact hi)
  rw [h6, h5, h4] at this
  exact this

/-- **C108**, conversely: with a listener that returns a connection or an error, and readers that keep their contract, the histories are those of `Recv.run`. -/
theorem C108_conversely (t : Transport) (lenQueue : Nat) (es : List Event) (s : State) :
    urun t lenQueue uinit (es.map .std) = some ⟨s, false⟩ ↔ run t lenQueue init es = some s := by
  have key : ∀ (es : List Event) (a : State), urun t lenQueue ⟨a, false⟩ (es.map .std) = (run t lenQueue a es).map fun s => ⟨s, false⟩ := by
    intro es
    induction es with
    | nil => intro a; rfl
    | cons e r ih =>
      intro a
      have h1 : ustep t lenQueue ⟨a, false⟩ (.std e) = (step t lenQueue a e).map fun s => ⟨s, false⟩ := by
        unfold ustep
        cases hc : a.crashed with
        | true => simp [hc, step]
        | false => cases e <;> simp [hc]
      simp only [List.map_cons, urun, run, h1]
      cases step t lenQueue a e with
      | none => rfl
      | some a' => simpa using ih a'
  have h := key es init
  unfold uinit
  rw [h]
  cases run t lenQueue init es with
  | none => simp
  | some s' => simp

/-- **C108**, a connection that comes with an error: the error is put on the error channel, and the connection is served: it is a new one, of which nothing
was read yet, whose goroutine runs; no goroutine without a connection is started. -/
theorem C108_both (t : Transport) (lenQueue : Nat) (u : UState) (hc : u.s.crashed = false) (ha : u.s.pc = .accept) (he : u.s.errs < 10) :
    ∃ u', urun t lenQueue u [.both, .std .tau] = some u' ∧ u'.s.crashed = false ∧ u'.s.errs = u.s.errs + 1 ∧ u'.s.conns = u.s.conns ++ [Conn.new] ∧
      u'.s.nilConns = u.s.nilConns ∧ u'.s.pc = .select := by
  refine ⟨⟨{ u.s with errs := u.s.errs + 1, conns := u.s.conns ++ [Conn.new], pc := .select }, false⟩, ?_, hc, rfl, rfl, rfl, rfl⟩
  simp [urun, ustep, hc, ha, errCap, he]

/-- **C108**, the crashes: a program crashes only because `Accept` returned no connection, a `Read` returned more than it could, what was received makes `Parse` panic, `End` was called
twice, or a message is sent after `End`. Exactly: the event that crashes it is one of these. -/
theorem C108_crashes (t : Transport) (lenQueue : Nat) (u u' : UState) (e : UEvent) (h : ustep t lenQueue u e = some u') (hc : u'.s.crashed = true) :
    (e = .std .nilStart ∧ 0 < u.s.nilConns) ∨ (∃ i, e = .over i) ∨ (∃ i r c, e = .std (.read i r) ∧ u.s.conns[i]? = some c ∧ Tok.step t c.tok r = .panic) ∨
    (e = .std .endCall ∧ u.s.ended = true) ∨ (∃ i, e = .std (.sendMsg i) ∧ u.s.pipelineClosed = true) := by
  obtain ⟨s, w⟩ := u
  have hnc : s.crashed = false := by
    unfold ustep at h
    cases hx : s.crashed with
    | false => rfl
    | true => simp [hx] at h
  unfold ustep at h
  rw [if_neg (by simp [hnc])] at h
  cases e with
  | over i => exact Or.inr (Or.inl ⟨i, rfl⟩)
  | both => simp only at h; split at h <;> simp at h; subst h; simp [hnc] at hc
  | neither => simp only at h; split at h <;> simp at h; subst h; simp [hnc] at hc
  | std e =>
    have hstep : (∃ u2, step t lenQueue s e = some u2 ∧ u2.crashed = true) →
        (e = .nilStart ∧ 0 < s.nilConns) ∨ (∃ i r c, e = .read i r ∧ s.conns[i]? = some c ∧ Tok.step t c.tok r = .panic) ∨
        (e = .endCall ∧ s.ended = true) ∨ (∃ i, e = .sendMsg i ∧ s.pipelineClosed = true) := by
      rintro ⟨s2, hs, hc2⟩
      unfold step at hs
      rw [if_neg (by simp [hnc])] at hs
      cases e with
      | nilStart =>
        simp only at hs; split at hs
        · next g => exact Or.inl ⟨rfl, g⟩
        · simp at hs
      | read i r =>
        simp only at hs
        split at hs
        · simp at hs
        · next c hi =>
          split at hs
          · split at hs
            · simp only [Option.some.injEq] at hs; subst hs; simp [State.setConn, hnc] at hc2
            · next hp => exact Or.inr (Or.inl ⟨i, r, c, rfl, hi, hp⟩)
            · simp at hs
          · simp at hs
      | endCall =>
        simp only at hs
        split at hs
        · next g => exact Or.inr (Or.inr (Or.inl ⟨rfl, g⟩))
        · simp only [Option.some.injEq] at hs; subst hs; simp [hnc] at hc2
      | sendMsg i =>
        simp only at hs
        split at hs
        · simp at hs
        · split at hs
          · simp at hs
          · split at hs
            · simp at hs
            · split at hs
              · next g => exact Or.inr (Or.inr (Or.inr ⟨i, rfl, g⟩))
              · split at hs
                · simp only [Option.some.injEq] at hs; subst hs; simp [State.setConn, hnc] at hc2
                · simp at hs
      | tau =>
        simp only at hs
        split at hs
        · simp only [Option.some.injEq] at hs; subst hs; simp [hnc] at hc2
        · split at hs
          · simp only [Option.some.injEq] at hs; subst hs; simp [hnc] at hc2
          · simp at hs
        · simp only [Option.some.injEq] at hs; subst hs; simp [hnc] at hc2
        · simp only [Option.some.injEq] at hs; subst hs; simp [hnc] at hc2
        · simp at hs
      | acceptOk => simp only at hs; split at hs <;> simp at hs; subst hs; simp [hnc] at hc2
      | acceptErr => simp only at hs; split at hs <;> simp at hs; subst hs; simp [hnc] at hc2
      | recvErr => simp only at hs; split at hs <;> simp at hs; subst hs; simp [hnc] at hc2
      | recvClosed => simp only at hs; split at hs <;> simp at hs; subst hs; simp [hnc] at hc2
      | recv => simp only at hs; split at hs <;> simp at hs; subst hs; simp [hnc] at hc2
      | sendErr i =>
        simp only at hs; split at hs
        · simp at hs
        · split at hs <;> simp at hs; subst hs; simp [State.setConn, hnc] at hc2
      | close i =>
        simp only at hs; split at hs
        · simp at hs
        · split at hs <;> simp at hs; subst hs; simp [State.setConn, hnc] at hc2
      | handoff i =>
        simp only at hs; split at hs
        · simp at hs
        · split at hs
          · simp at hs
          · split at hs <;> simp at hs; subst hs; simp [State.setConn, hnc] at hc2
    have conclude : (step t lenQueue s e).map (fun s => (⟨s, w⟩ : UState)) = some u' → 
        (UEvent.std e = .std .nilStart ∧ 0 < s.nilConns) ∨ (∃ i, UEvent.std e = .over i) ∨ (∃ i r c, UEvent.std e = .std (.read i r) ∧ s.conns[i]? = some c ∧ Tok.step t c.tok r = .panic) ∨
        (UEvent.std e = .std .endCall ∧ s.ended = true) ∨ (∃ i, UEvent.std e = .std (.sendMsg i) ∧ s.pipelineClosed = true) := by
      intro h
      rw [Option.map_eq_some_iff] at h
      obtain ⟨s2, hs, rfl⟩ := h
      rcases hstep ⟨s2, hs, hc⟩ with ⟨rfl, g⟩ | ⟨i, r, c, rfl, g⟩ | ⟨rfl, g⟩ | ⟨i, rfl, g⟩
      · exact Or.inl ⟨rfl, g⟩
      · exact Or.inr (Or.inr (Or.inl ⟨i, r, c, rfl, g⟩))
      · exact Or.inr (Or.inr (Or.inr (Or.inl ⟨rfl, g⟩)))
      · exact Or.inr (Or.inr (Or.inr (Or.inr ⟨i, rfl, g⟩)))
    cases e with
    | tau =>
      simp only at h
      split at h
      · split at h
        · simp only [Option.some.injEq] at h; subst h; simp [hnc] at hc
        · simp at h
      · exact conclude h
    | _ => exact conclude h

/-- C108 is violated: if `Accept` returns neither a connection nor an error, nothing is reported, and the program crashes as soon as the goroutine that was started
for it runs. -/
theorem C108_neither_violated (t : Transport) (lenQueue : Nat) (u : UState) (hc : u.s.crashed = false) (ha : u.s.pc = .accept) :
    ∃ u1 u2, ustep t lenQueue u .neither = some u1 ∧ u1.s.errs = u.s.errs ∧ u1.s.conns = u.s.conns ∧
      ustep t lenQueue u1 (.std .nilStart) = some u2 ∧ u2.s.crashed = true := by
  refine ⟨{ u with s := { u.s with nilConns := u.s.nilConns + 1, pc := .select } },
    { u with s := { u.s with nilConns := u.s.nilConns + 1, pc := .select, crashed := true } }, ?_, rfl, rfl, ?_, rfl⟩
  · simp [ustep, hc, ha]
  · simp [ustep, step, hc]

/-- C108 is violated: a `Read` that says that it has read more than it was given room for crashes the program, whichever connection it belongs to. -/
theorem C108_over_violated (t : Transport) (lenQueue : Nat) (u : UState) (hc : u.s.crashed = false) (i : Nat) (c : Conn) (hi : u.s.conns[i]? = some c)
    (hr : c.running = true) (hp : c.pending = []) (he : c.errPending = false) :
    ∃ u', ustep t lenQueue u (.over i) = some u' ∧ u'.s.crashed = true := by
  refine ⟨{ u with s := { u.s with crashed := true } }, ?_, rfl⟩
  simp [ustep, hc, hi, hr, hp, he]

/-- A history with a connection that comes with an error, a connection without error, a call without either and a read of the first connection. -/
example : (urun .lfEnded 0 uinit [.std .tau, .both, .std .tau, .std .tau, .std .acceptOk, .std .tau, .neither, .std (.read 0 { data := [60] })]).map
    (fun u => (u.s.crashed, u.s.errs, u.s.conns.length, u.s.nilConns)) = some (false, 1, 2, 1) := by decide +kernel

/-- A state in which `Accept` has been called, and one with a connection that waits for data. -/
example : ∃ u, urun .lfEnded 0 uinit [.std .tau, .both, .std .tau, .std .tau] = some u ∧ u.s.crashed = false ∧ u.s.pc = .accept ∧ u.s.errs < 10 ∧
    ∃ c, u.s.conns[0]? = some c ∧ c.running = true ∧ c.pending = [] ∧ c.errPending = false :=
  ⟨_, rfl, rfl, rfl, by decide, _, rfl, rfl, rfl, rfl⟩

end Syslog5424
