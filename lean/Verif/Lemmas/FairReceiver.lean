import Verif.Lemmas.Fair
import Verif.Lemmas.Receiver
/-! # Lemmas: what a receiver does eventually -/
namespace Syslog5424.Recv
open Spec

theorem history_past {t : Transport} {q : Nat} {ev : Nat → Option Event} {st : Nat → State} (hx : ReceiverExec t q ev st) (n : Nat) :
    run t q init (past ev n) = some (st n) := by
  induction n with
  | zero => simp [past, run, hx.start]
  | succ n ih =>
    rw [past_succ]
    cases h : ev n with
    | none => simpa [hx.nothing n h] using ih
    | some e =>
      rw [run_append, ih]
      simp [run, hx.event n e h]

/-- What is decoded on connection `i`. -/
def decoded (s : State) (i : Nat) (c : Conn) : List Tok.Delivered := ofConn i s.got ++ ofConn i s.pipeline ++ c.pending

/-- What one event does to a connection: the pairs only move on towards the user; only a read adds some, when none is
left, and only a read adds an error. -/
structure Moves (s s' : State) (i : Nat) (c c' : Conn) (e : Event) : Prop where
  all : decoded s i c <+: decoded s' i c'
  out : ofConn i s.got ++ ofConn i s.pipeline <+: ofConn i s'.got ++ ofConn i s'.pipeline
  fifo : s.got ++ s.pipeline <+: s'.got ++ s'.pipeline
  got : s.got.length ≤ s'.got.length
  err : c.pending ≠ [] → c'.errPending = true → c.errPending = true
  receive : isReceive e = true → s.got.length < s'.got.length
  worker : isWorker i e = true → (c.errPending = true ∧ c'.errPending = false) ∨
    (ofConn i s.got ++ ofConn i s.pipeline).length < (ofConn i s'.got ++ ofConn i s'.pipeline).length

theorem moves_keep {s s' : State} {i : Nat} {c : Conn} {e : Event} (h1 : s'.got = s.got) (h2 : s'.pipeline = s.pipeline)
    (hr : isReceive e = false) (hw : isWorker i e = false) : Moves s s' i c c e := by
  refine ⟨?_, ?_, ?_, ?_, fun _ h => h, by simp [hr], by simp [hw]⟩
  · unfold decoded; rw [h1, h2]; exact List.prefix_refl _
  · rw [h1, h2]; exact List.prefix_refl _
  · rw [h1, h2]; exact List.prefix_refl _
  · rw [h1]; exact Nat.le_refl _

theorem step_moves {t : Transport} {q : Nat} {s s' : State} {e : Event} {i : Nat} {c : Conn} (hs : step t q s e = some s')
    (hc : s'.crashed = false) (hi : s.conns[i]? = some c) : ∃ c', s'.conns[i]? = some c' ∧ Moves s s' i c c' e := by
  unfold step at hs
  split at hs
  · simp at hs
  have hlt : i < s.conns.length := by
    rcases Nat.lt_or_ge i s.conns.length with h1 | h1
    · exact h1
    · rw [List.getElem?_eq_none h1] at hi; simp at hi
  have other : ∀ {j : Nat} {c2 : Conn}, j ≠ i → (s.conns.set j c2)[i]? = some c := by
    intro j c2 h; rw [List.getElem?_set_ne h]; exact hi
  have same : ∀ {c2 : Conn}, (s.conns.set i c2)[i]? = some c2 := by
    intro c2; rw [List.getElem?_set_self hlt]
  cases e with
  | tau =>
    simp only at hs
    split at hs
    case h_2 =>
      split at hs
      · simp only [Option.some.injEq] at hs; subst hs; exact ⟨c, hi, moves_keep rfl rfl rfl rfl⟩
      · simp at hs
    case h_5 => simp at hs
    all_goals
      simp only [Option.some.injEq] at hs; subst hs; exact ⟨c, hi, moves_keep rfl rfl rfl rfl⟩
  | acceptOk =>
    simp only at hs
    split at hs
    · simp only [Option.some.injEq] at hs; subst hs
      exact ⟨c, by simp only; rw [List.getElem?_append_left hlt]; exact hi, moves_keep rfl rfl rfl rfl⟩
    · simp at hs
  | acceptErr =>
    simp only at hs
    split at hs
    · simp only [Option.some.injEq] at hs; subst hs; exact ⟨c, hi, moves_keep rfl rfl rfl rfl⟩
    · simp at hs
  | nilStart =>
    simp only at hs
    split at hs
    · simp only [Option.some.injEq] at hs; subst hs; simp at hc
    · simp at hs
  | read j r =>
    simp only at hs
    split at hs
    · simp at hs
    · rename_i c0 hj
      split at hs
      · rename_i hcond
        split at hs
        · rename_i goOn tok htok
          simp only [Option.some.injEq] at hs
          subst hs
          by_cases hji : j = i
          · subst hji
            rw [hi] at hj
            simp only [Option.some.injEq] at hj
            subst hj
            have hp : c.pending = [] := List.eq_nil_of_length_eq_zero hcond.2.1
            refine ⟨_, same, ?_⟩
            refine ⟨?_, List.prefix_refl _, List.prefix_refl _, Nat.le_refl _, fun h => absurd hp h, by simp [isReceive], by simp [isWorker]⟩
            unfold decoded
            rw [hp, List.append_nil]
            exact List.prefix_append _ _
          · exact ⟨c, other hji, moves_keep rfl rfl rfl rfl⟩
        · simp only [Option.some.injEq] at hs; subst hs; simp at hc
        · simp at hs
      · simp at hs
  | sendErr j =>
    simp only at hs
    split at hs
    · simp at hs
    · rename_i c0 hj
      split at hs
      · rename_i hcond
        simp only [Option.some.injEq] at hs
        subst hs
        by_cases hji : j = i
        · subst hji
          rw [hi] at hj
          simp only [Option.some.injEq] at hj
          subst hj
          refine ⟨_, same, ?_⟩
          refine ⟨List.prefix_refl _, List.prefix_refl _, List.prefix_refl _, Nat.le_refl _, fun _ h => by simp at h, by simp [isReceive], fun _ => Or.inl ⟨hcond.1, rfl⟩⟩
        · exact ⟨c, other hji, moves_keep rfl rfl rfl (by simpa [isWorker] using hji)⟩
      · simp at hs
  | sendMsg j =>
    simp only at hs
    split at hs
    · simp at hs
    · rename_i c0 hj
      split at hs
      · simp at hs
      · rename_i d r hp
        split at hs
        · simp at hs
        · split at hs
          · simp only [Option.some.injEq] at hs; subst hs; simp at hc
          · split at hs
            · simp only [Option.some.injEq] at hs
              subst hs
              by_cases hji : j = i
              · subst hji
                rw [hi] at hj
                simp only [Option.some.injEq] at hj
                subst hj
                refine ⟨_, same, ?_⟩
                refine ⟨?_, ?_, ?_, Nat.le_refl _, fun _ h => h, by simp [isReceive], fun _ => Or.inr ?_⟩
                · simp [decoded, State.setConn, ofConn_one, hp]
                · simp only [State.setConn, ofConn_append, ← List.append_assoc]; exact List.prefix_append _ _
                · simp only [State.setConn, ← List.append_assoc]; exact List.prefix_append _ _
                · simp [State.setConn, ofConn_one]
              · refine ⟨c, other hji, ?_⟩
                refine ⟨?_, ?_, ?_, Nat.le_refl _, fun _ h => h, by simp [isReceive], by simp [isWorker, hji]⟩
                · simp [decoded, State.setConn, ofConn_one, hji]
                · simp [State.setConn, ofConn_one, hji]
                · simp only [State.setConn, ← List.append_assoc]; exact List.prefix_append _ _
            · simp at hs
  | close j =>
    simp only at hs
    split at hs
    · simp at hs
    · rename_i c0 hj
      split at hs
      · simp only [Option.some.injEq] at hs
        subst hs
        by_cases hji : j = i
        · subst hji
          rw [hi] at hj
          simp only [Option.some.injEq] at hj
          subst hj
          refine ⟨_, same, ?_⟩
          exact ⟨List.prefix_refl _, List.prefix_refl _, List.prefix_refl _, Nat.le_refl _, fun _ h => h, by simp [isReceive], by simp [isWorker]⟩
        · exact ⟨c, other hji, moves_keep rfl rfl rfl rfl⟩
      · simp at hs
  | recv =>
    simp only at hs
    split at hs
    · simp at hs
    · rename_i x r hp
      simp only [Option.some.injEq] at hs
      subst hs
      refine ⟨c, hi, ?_⟩
      refine ⟨?_, ?_, ?_, by simp, fun _ h => h, by simp, by simp [isWorker]⟩
      · simp only [decoded, hp]
        rw [ofConn_cons i x r, ofConn_append]
        simp only [List.append_assoc]
        exact List.prefix_refl _
      · simp only [hp]
        rw [ofConn_cons i x r, ofConn_append]
        simp only [List.append_assoc]
        exact List.prefix_refl _
      · simp only [hp, List.append_assoc]
        exact List.prefix_refl _
  | handoff j =>
    simp only at hs
    split at hs
    · simp at hs
    · rename_i c0 hj
      split at hs
      · simp at hs
      · rename_i d r hp
        split at hs
        · simp at hs
        · rename_i hcond
          have hq : s.pipeline = [] := by
            simp only [not_or, Decidable.not_not] at hcond
            exact List.eq_nil_of_length_eq_zero hcond.2.2
          simp only [Option.some.injEq] at hs
          subst hs
          by_cases hji : j = i
          · subst hji
            rw [hi] at hj
            simp only [Option.some.injEq] at hj
            subst hj
            refine ⟨_, same, ?_⟩
            refine ⟨?_, ?_, ?_, by simp [State.setConn], fun _ h => h, by simp [State.setConn], fun _ => Or.inr ?_⟩
            · simp [decoded, State.setConn, ofConn_one, hp, hq]
            · simp [State.setConn, hq, ofConn_one]
            · simp [State.setConn, hq]
            · simp [State.setConn, ofConn_one, hq]
          · refine ⟨c, other hji, ?_⟩
            refine ⟨?_, ?_, ?_, by simp [State.setConn], fun _ h => h, by simp [State.setConn], by simp [isWorker, hji]⟩
            · simp [decoded, State.setConn, ofConn_one, hji, hq]
            · simp [State.setConn, ofConn_one, hji, hq]
            · simp [State.setConn, hq]
  | recvClosed =>
    simp only at hs
    split at hs
    · simp only [Option.some.injEq] at hs; subst hs; exact ⟨c, hi, moves_keep rfl rfl rfl rfl⟩
    · simp at hs
  | endCall =>
    simp only at hs
    split at hs
    · simp only [Option.some.injEq] at hs; subst hs; simp at hc
    · simp only [Option.some.injEq] at hs; subst hs; exact ⟨c, hi, moves_keep rfl rfl rfl rfl⟩
  | recvErr =>
    simp only at hs
    split at hs
    · simp only [Option.some.injEq] at hs; subst hs; exact ⟨c, hi, moves_keep rfl rfl rfl rfl⟩
    · simp at hs

/-- What is received and what waits is a queue. -/
theorem step_fifo {t : Transport} {q : Nat} {s s' : State} {e : Event} (hs : step t q s e = some s') :
    s.got ++ s.pipeline <+: s'.got ++ s'.pipeline ∧ s.got.length ≤ s'.got.length ∧
    (isReceive e = true → s.got.length < s'.got.length ∧ (s'.pipeline = [] ∨ s'.pipeline.length < s.pipeline.length)) := by
  unfold step at hs
  split at hs
  · simp at hs
  cases e <;> simp only at hs <;> repeat' (split at hs)
  all_goals first
    | (simp only [Option.some.injEq] at hs; subst hs; simp [isReceive, State.setConn]; done)
    | (simp at hs; done)
    | (simp only [Option.some.injEq] at hs; subst hs; simp_all [isReceive, State.setConn])

section
variable {t : Transport} {q : Nat} {ev : Nat → Option Event} {st : Nat → State}

theorem fifo_mono (hx : ReceiverExec t q ev st) {n m : Nat} (h : n ≤ m) :
    (st n).got ++ (st n).pipeline <+: (st m).got ++ (st m).pipeline :=
  stays hx (fun s => (st n).got ++ (st n).pipeline <+: s.got ++ s.pipeline) n (List.prefix_refl _)
    (fun m _ e he h => h.trans (step_fifo (hx.event m e he)).1) m h

/-- What is in the queue is received. -/
theorem queue_received (hx : ReceiverExec t q ev st) (hcons : Consumed t q ev st) (hc : ∀ n, (st n).crashed = false) (n : Nat) :
    ∃ m, n ≤ m ∧ (st n).got ++ (st n).pipeline <+: (st m).got := by
  generalize hX : (st n).got ++ (st n).pipeline = X
  obtain ⟨m, hm, h⟩ := eventually hx isReceive (fun s => X <+: s.got ++ s.pipeline) (fun s => X.length ≤ s.got.length)
    (fun s => X.length - s.got.length) n
    (by
      intro n' hn' hI
      obtain ⟨m, hm, h | h⟩ := hcons n'
      · exact ⟨m, hm, Or.inl h⟩
      · refine ⟨m, hm, Or.inr ?_⟩
        have hp : (st m).pipeline = [] := by
          cases hp : (st m).pipeline with
          | nil => rfl
          | cons x r =>
            have := h .recv rfl
            simp [step, hc m, hp] at this
        have := hI.trans (fifo_mono hx hm)
        rw [hp, List.append_nil] at this
        exact this.length_le)
    (by
      intro n' hn' e he hI hG
      obtain ⟨h1, h2, h3⟩ := step_fifo (hx.event n' e he)
      right
      refine ⟨hI.trans h1, by omega, fun hr => ?_⟩
      have := (h3 hr).1
      omega)
    n (Nat.le_refl _) (by rw [hX]; exact List.prefix_refl _)
  refine ⟨m, hm, ?_⟩
  have h1 := fifo_mono hx hm
  rw [hX] at h1
  exact List.prefix_of_prefix_length_le h1 (List.prefix_append _ _) h

theorem queue_bound (hx : ReceiverExec t q ev st) (n : Nat) : (st n).pipeline.length ≤ q := by
  refine stays hx (fun s => s.pipeline.length ≤ q) 0 (by rw [hx.start]; simp [init]) ?_ n (Nat.zero_le _)
  intro m _ e he ih
  have hs := hx.event m e he
  unfold step at hs
  split at hs
  · simp at hs
  cases e <;> simp only at hs <;> repeat' (split at hs)
  all_goals first
    | (simp only [Option.some.injEq] at hs; rw [← hs]; first | exact ih | (simp only [State.setConn, List.length_append, List.length_singleton]; omega) | skip)
    | (simp at hs; done)
  · rename_i hp; rw [hp] at ih; simp only [List.length_cons] at ih; simp only; omega

/-- Again and again there is room in the queue. -/
theorem queue_room (hx : ReceiverExec t q ev st) (hcons : Consumed t q ev st) (hc : ∀ n, (st n).crashed = false) (hq : 0 < q) (n : Nat) :
    ∃ m, n ≤ m ∧ (st m).pipeline.length < q := by
  obtain ⟨m, hm, ⟨e, he, hr⟩ | h⟩ := hcons n
  · refine ⟨m + 1, by omega, ?_⟩
    have := queue_bound hx m
    rcases ((step_fifo (hx.event m e he)).2.2 hr).2 with h | h
    · rw [h]; exact hq
    · omega
  · refine ⟨m, hm, ?_⟩
    cases hp : (st m).pipeline with
    | nil => exact hq
    | cons x r =>
      have := h .recv rfl
      simp [step, hc m, hp] at this

/-- The connection `i` after its beginning. -/
theorem conn_stays (hx : ReceiverExec t q ev st) (hc : ∀ n, (st n).crashed = false) {i n : Nat} {c : Conn} (hi : (st n).conns[i]? = some c)
    {m : Nat} (hm : n ≤ m) : ∃ c', (st m).conns[i]? = some c' ∧ decoded (st n) i c <+: decoded (st m) i c' := by
  induction hm with
  | refl => exact ⟨c, hi, List.prefix_refl _⟩
  | @step m hm ih =>
    obtain ⟨c', h1, h2⟩ := ih
    cases h : ev m with
    | none => rw [hx.nothing m h]; exact ⟨c', h1, h2⟩
    | some e =>
      obtain ⟨c2, h3, h4⟩ := step_moves (hx.event m e h) (hc (m + 1)) h1
      exact ⟨c2, h3, h2.trans h4.all⟩

/-- An error waits on connection `i`. -/
def errFlag (s : State) (i : Nat) : Nat := match s.conns[i]? with | some c => if c.errPending then 1 else 0 | none => 0

theorem worker_enabled {s : State} {i : Nat} {c : Conn} (hc : s.crashed = false) (hi : s.conns[i]? = some c) (hp : c.pending ≠ [])
    (h : (c.errPending = true ∧ s.errs < errCap) ∨ (c.errPending = false ∧ (s.pipeline.length < q ∨ s.pipeline = []))) :
    ∃ e, isWorker i e = true ∧ step t q s e ≠ none := by
  rcases h with ⟨h1, h2⟩ | ⟨h1, h2⟩
  · exact ⟨.sendErr i, by simp [isWorker], by simp [step, hc, hi, h1, h2]⟩
  · cases hpd : c.pending with
    | nil => exact absurd hpd hp
    | cons d r =>
      cases hcl : s.pipelineClosed with
      | true => exact ⟨.sendMsg i, by simp [isWorker], by simp [step, hc, hi, hpd, h1, hcl]⟩
      | false =>
        rcases h2 with h2 | h2
        · exact ⟨.sendMsg i, by simp [isWorker], by simp [step, hc, hi, hpd, h1, hcl, h2]⟩
        · exact ⟨.handoff i, by simp [isWorker], by simp [step, hc, hi, hpd, h1, hcl, h2]⟩

/-- What is decoded on a connection gets to the queue. -/
theorem conn_sends (hx : ReceiverExec t q ev st) (hcons : Consumed t q ev st) (hc : ∀ n, (st n).crashed = false)
    (herr : ErrorsDrained st) {i : Nat} (hserve : Served t q i ev st) {n : Nat} {c : Conn} (hi : (st n).conns[i]? = some c) :
    ∃ m, n ≤ m ∧ decoded (st n) i c <+: ofConn i (st m).got ++ ofConn i (st m).pipeline := by
  generalize hX : decoded (st n) i c = X
  have hX' : ∀ m, n ≤ m → ∃ c', (st m).conns[i]? = some c' ∧ X <+: decoded (st m) i c' := by
    intro m hm; rw [← hX]; exact conn_stays hx hc hi hm
  have hpend : ∀ {s : State} {c' : Conn}, X <+: decoded s i c' → ¬ X.length ≤ (ofConn i s.got ++ ofConn i s.pipeline).length →
      c'.pending ≠ [] := by
    intro s c' h hn hp
    refine hn ?_
    unfold decoded at h
    rw [hp, List.append_nil] at h
    exact h.length_le
  obtain ⟨m, hm, h⟩ := eventually hx (isWorker i) (fun s => ∃ c', s.conns[i]? = some c' ∧ X <+: decoded s i c')
    (fun s => X.length ≤ (ofConn i s.got ++ ofConn i s.pipeline).length)
    (fun s => 2 * (X.length - (ofConn i s.got ++ ofConn i s.pipeline).length) + errFlag s i) n
    (by
      intro n' hn' _
      refine Classical.byContradiction fun hno => ?_
      have hw : ∀ m, n' ≤ m → ∀ e, ev m = some e → isWorker i e = false := by
        intro m hm e he
        cases h : isWorker i e with
        | false => rfl
        | true => exact absurd ⟨m, hm, Or.inl ⟨e, he, h⟩⟩ hno
      have hG : ∀ m, n' ≤ m → ¬ X.length ≤ (ofConn i (st m).got ++ ofConn i (st m).pipeline).length :=
        fun m hm h => hno ⟨m, hm, Or.inr h⟩
      -- without an error to send, the connection can send a pair again and again
      have hsend : ∀ k, n' ≤ k → ∀ ck, (st k).conns[i]? = some ck → ck.errPending = false →
          ∃ m, k ≤ m ∧ ∃ e, isWorker i e = true ∧ step t q (st m) e ≠ none := by
        intro k hk ck hck hek
        have hroom : ∃ m, k ≤ m ∧ ((st m).pipeline.length < q ∨ (st m).pipeline = []) := by
          rcases Nat.eq_zero_or_pos q with h0 | h0
          · refine ⟨k, Nat.le_refl _, Or.inr ?_⟩
            have := queue_bound hx k
            exact List.eq_nil_of_length_eq_zero (by omega)
          · obtain ⟨m, h1, h2⟩ := queue_room hx hcons hc h0 k
            exact ⟨m, h1, Or.inl h2⟩
        obtain ⟨m, hm, hr⟩ := hroom
        have hstay := stays hx (fun s => (∃ c', s.conns[i]? = some c' ∧ X <+: decoded s i c' ∧ c'.errPending = false)) k
          (by obtain ⟨c', h1, h2⟩ := hX' k (by omega)
              rw [hck] at h1; cases h1
              exact ⟨ck, hck, h2, hek⟩)
          (by
            intro j hj e he ⟨c1, h1, h2, h3⟩
            obtain ⟨c2, h4, h5⟩ := step_moves (hx.event j e he) (hc (j + 1)) h1
            refine ⟨c2, h4, h2.trans h5.all, ?_⟩
            cases h6 : c2.errPending with
            | false => rfl
            | true => have := h5.err (hpend h2 (hG j (by omega))) h6; rw [h3] at this; cases this) m hm
        obtain ⟨c', h1, h2, h3⟩ := hstay
        exact ⟨m, hm, worker_enabled (hc m) h1 (hpend h2 (hG m (by omega))) (Or.inr ⟨h3, hr⟩)⟩
      obtain ⟨m, hm, e, he, hp⟩ := hserve (by
        intro k
        obtain ⟨m, hm, hroom⟩ := herr (max k n')
        obtain ⟨c', h1, h2⟩ := hX' m (by omega)
        cases h3 : c'.errPending with
        | true => exact ⟨m, by omega, worker_enabled (hc m) h1 (hpend h2 (hG m (by omega))) (Or.inl ⟨h3, hroom⟩)⟩
        | false =>
          obtain ⟨m', hm', h⟩ := hsend m (by omega) c' h1 h3
          exact ⟨m', by omega, h⟩) n'
      rw [hw m hm e he] at hp
      cases hp)
    (by
      intro n' hn' e he ⟨c1, h1, h2⟩ hG
      right
      obtain ⟨c2, h3, h4⟩ := step_moves (hx.event n' e he) (hc (n' + 1)) h1
      refine ⟨⟨c2, h3, h2.trans h4.all⟩, ?_⟩
      have hp := hpend h2 hG
      have hlen := h4.out.length_le
      have hf1 : errFlag (st n') i = if c1.errPending then 1 else 0 := by simp [errFlag, h1]
      have hf2 : errFlag (st (n' + 1)) i = if c2.errPending then 1 else 0 := by simp [errFlag, h3]
      have hle : errFlag (st (n' + 1)) i ≤ errFlag (st n') i := by
        rw [hf1, hf2]
        cases h5 : c2.errPending with
        | false => simp
        | true => rw [h4.err hp h5]; exact Nat.le_refl _
      refine ⟨by omega, fun hw => ?_⟩
      rcases h4.worker hw with ⟨h5, h6⟩ | h5
      · rw [hf1, hf2, h5, h6]
        simp only [if_true, Bool.false_eq_true, if_false]
        omega
      · omega)
    n (Nat.le_refl _) ⟨c, hi, by rw [hX]; exact List.prefix_refl _⟩
  refine ⟨m, hm, ?_⟩
  obtain ⟨c', _, h2⟩ := hX' m hm
  exact List.prefix_of_prefix_length_le h2 (List.prefix_append _ _) h

/-- What one event that is not a read does to the work of a connection. -/
theorem step_work {s s' : State} {e : Event} {i : Nat} {c : Conn} (hs : step t q s e = some s')
    (hc : s'.crashed = false) (hi : s.conns[i]? = some c) :
    (∃ r, e = .read i r ∧ c.pending = [] ∧ c.errPending = false) ∨
    ∃ c', s'.conns[i]? = some c' ∧ c'.pending.length ≤ c.pending.length ∧ (c'.errPending = true → c.errPending = true) ∧
      (isWorker i e = true → c'.pending.length < c.pending.length ∨ (c.errPending = true ∧ c'.errPending = false)) := by
  have hlt : i < s.conns.length := by
    rcases Nat.lt_or_ge i s.conns.length with h1 | h1
    · exact h1
    · rw [List.getElem?_eq_none h1] at hi; simp at hi
  have keep : s'.conns = s.conns → isWorker i e = false → ∃ c', s'.conns[i]? = some c' ∧ c'.pending.length ≤ c.pending.length ∧
      (c'.errPending = true → c.errPending = true) ∧
      (isWorker i e = true → c'.pending.length < c.pending.length ∨ (c.errPending = true ∧ c'.errPending = false)) :=
    fun h hw => ⟨c, by rw [h]; exact hi, Nat.le_refl _, fun h => h, by simp [hw]⟩
  have set : ∀ (j : Nat) (c0 c2 : Conn), s.conns[j]? = some c0 → s'.conns = s.conns.set j c2 → (j ≠ i → isWorker i e = false) →
      (j = i → c2.pending.length ≤ c0.pending.length ∧ (c2.errPending = true → c0.errPending = true) ∧
      (isWorker i e = true → c2.pending.length < c0.pending.length ∨ (c0.errPending = true ∧ c2.errPending = false))) →
      ∃ c', s'.conns[i]? = some c' ∧ c'.pending.length ≤ c.pending.length ∧ (c'.errPending = true → c.errPending = true) ∧
      (isWorker i e = true → c'.pending.length < c.pending.length ∨ (c.errPending = true ∧ c'.errPending = false)) := by
    intro j c0 c2 hj h hw h2
    by_cases hji : j = i
    · subst hji
      rw [hi] at hj
      simp only [Option.some.injEq] at hj
      subst hj
      exact ⟨c2, by rw [h, List.getElem?_set_self hlt], h2 rfl⟩
    · exact ⟨c, by rw [h, List.getElem?_set_ne hji]; exact hi, Nat.le_refl _, fun h => h, by simp [hw hji]⟩
  unfold step at hs
  split at hs
  · simp at hs
  cases e with
  | tau =>
    simp only at hs
    split at hs
    case h_2 =>
      split at hs
      · simp only [Option.some.injEq] at hs; subst hs; exact Or.inr (keep rfl rfl)
      · simp at hs
    case h_5 => simp at hs
    all_goals
      simp only [Option.some.injEq] at hs; subst hs; exact Or.inr (keep rfl rfl)
  | acceptOk =>
    simp only at hs
    split at hs
    · simp only [Option.some.injEq] at hs; subst hs
      exact Or.inr ⟨c, by simp only; rw [List.getElem?_append_left hlt]; exact hi, Nat.le_refl _, fun h => h, by simp [isWorker]⟩
    · simp at hs
  | read j r =>
    simp only at hs
    split at hs
    · simp at hs
    · rename_i c0 hj
      split at hs
      · rename_i hcond
        by_cases hji : j = i
        · subst hji
          rw [hi] at hj
          simp only [Option.some.injEq] at hj
          subst hj
          exact Or.inl ⟨r, rfl, List.eq_nil_of_length_eq_zero hcond.2.1, by simpa using hcond.2.2.1⟩
        · split at hs
          · simp only [Option.some.injEq] at hs
            subst hs
            exact Or.inr (set j c0 _ hj rfl (fun _ => rfl) (fun h => absurd h hji))
          · simp only [Option.some.injEq] at hs; subst hs; simp at hc
          · simp at hs
      · simp at hs
  | sendErr j =>
    simp only at hs
    split at hs
    · simp at hs
    · rename_i c0 hj
      split at hs
      · rename_i hcond
        simp only [Option.some.injEq] at hs
        subst hs
        exact Or.inr (set j c0 _ hj rfl (fun h => by simpa [isWorker] using h) (fun _ => ⟨Nat.le_refl _, by simp, fun _ => Or.inr ⟨hcond.1, rfl⟩⟩))
      · simp at hs
  | sendMsg j =>
    simp only at hs
    split at hs
    · simp at hs
    · rename_i c0 hj
      split at hs
      · simp at hs
      · rename_i d r hp
        split at hs
        · simp at hs
        · split at hs
          · simp only [Option.some.injEq] at hs; subst hs; simp at hc
          · split at hs
            · simp only [Option.some.injEq] at hs
              subst hs
              exact Or.inr (set j c0 _ hj rfl (fun h => by simpa [isWorker] using h) (fun _ => ⟨by simp [hp], fun h => h, fun _ => Or.inl (by simp [hp])⟩))
            · simp at hs
  | close j =>
    simp only at hs
    split at hs
    · simp at hs
    · rename_i c0 hj
      split at hs
      · simp only [Option.some.injEq] at hs
        subst hs
        exact Or.inr (set j c0 _ hj rfl (fun _ => rfl) (fun _ => ⟨Nat.le_refl _, fun h => h, by simp [isWorker]⟩))
      · simp at hs
  | handoff j =>
    simp only at hs
    split at hs
    · simp at hs
    · rename_i c0 hj
      split at hs
      · simp at hs
      · rename_i d r hp
        split at hs
        · simp at hs
        · simp only [Option.some.injEq] at hs
          subst hs
          exact Or.inr (set j c0 _ hj rfl (fun h => by simpa [isWorker] using h) (fun _ => ⟨by simp [hp], fun h => h, fun _ => Or.inl (by simp [hp])⟩))
  | acceptErr =>
    simp only at hs
    split at hs
    · simp only [Option.some.injEq] at hs; subst hs; exact Or.inr (keep rfl rfl)
    · simp at hs
  | nilStart =>
    simp only at hs
    split at hs
    · simp only [Option.some.injEq] at hs; subst hs; simp at hc
    · simp at hs
  | recv =>
    simp only at hs
    split at hs
    · simp at hs
    · simp only [Option.some.injEq] at hs; subst hs; exact Or.inr (keep rfl rfl)
  | recvClosed =>
    simp only at hs
    split at hs
    · simp only [Option.some.injEq] at hs; subst hs; exact Or.inr (keep rfl rfl)
    · simp at hs
  | endCall =>
    simp only at hs
    split at hs
    · simp only [Option.some.injEq] at hs; subst hs; simp at hc
    · simp only [Option.some.injEq] at hs; subst hs; exact Or.inr (keep rfl rfl)
  | recvErr =>
    simp only at hs
    split at hs
    · simp only [Option.some.injEq] at hs; subst hs; exact Or.inr (keep rfl rfl)
    · simp at hs

/-- A connection comes to its next read. -/
theorem conn_ready (hx : ReceiverExec t q ev st) (hcons : Consumed t q ev st) (hc : ∀ n, (st n).crashed = false)
    (herr : ErrorsDrained st) {i : Nat} (hserve : Served t q i ev st) {n : Nat} {c : Conn} (hi : (st n).conns[i]? = some c) :
    ∃ m, n ≤ m ∧ ∃ c', (st m).conns[i]? = some c' ∧ c'.pending = [] ∧ c'.errPending = false := by
  have hex : ∀ m, n ≤ m → ∃ c', (st m).conns[i]? = some c' := fun m hm => by
    obtain ⟨c', h, _⟩ := conn_stays hx hc hi hm; exact ⟨c', h⟩
  refine eventually hx (isWorker i) (fun s => ∃ c', s.conns[i]? = some c')
    (fun s => ∃ c', s.conns[i]? = some c' ∧ c'.pending = [] ∧ c'.errPending = false)
    (fun s => match s.conns[i]? with | some c => 2 * c.pending.length + (if c.errPending then 1 else 0) | none => 0) n ?_ ?_ n (Nat.le_refl _) ⟨c, hi⟩
  · intro n' hn' _
    refine Classical.byContradiction fun hno => ?_
    have hw : ∀ m, n' ≤ m → ∀ e, ev m = some e → isWorker i e = false := by
      intro m hm e he
      cases h : isWorker i e with
      | false => rfl
      | true => exact absurd ⟨m, hm, Or.inl ⟨e, he, h⟩⟩ hno
    have hG : ∀ m, n' ≤ m → ∀ c', (st m).conns[i]? = some c' → ¬ (c'.pending = [] ∧ c'.errPending = false) :=
      fun m hm c' h h' => hno ⟨m, hm, Or.inr ⟨c', h, h'⟩⟩
    have hsend : ∀ k, n' ≤ k → ∀ ck, (st k).conns[i]? = some ck → ck.errPending = false →
        ∃ m, k ≤ m ∧ ∃ e, isWorker i e = true ∧ step t q (st m) e ≠ none := by
      intro k hk ck hck hek
      have hroom : ∃ m, k ≤ m ∧ ((st m).pipeline.length < q ∨ (st m).pipeline = []) := by
        rcases Nat.eq_zero_or_pos q with h0 | h0
        · refine ⟨k, Nat.le_refl _, Or.inr ?_⟩
          have := queue_bound hx k
          exact List.eq_nil_of_length_eq_zero (by omega)
        · obtain ⟨m, h1, h2⟩ := queue_room hx hcons hc h0 k
          exact ⟨m, h1, Or.inl h2⟩
      obtain ⟨m, hm, hr⟩ := hroom
      obtain ⟨c', h1, h3⟩ := stays hx (fun s => (∃ c', s.conns[i]? = some c' ∧ c'.errPending = false)) k ⟨ck, hck, hek⟩
        (by
          intro j hj e he ⟨c1, h1, h3⟩
          rcases step_work (hx.event j e he) (hc (j + 1)) h1 with ⟨r, _, h⟩ | ⟨c2, h4, _, h5, _⟩
          · exact absurd h (hG j (by omega) c1 h1)
          · refine ⟨c2, h4, ?_⟩
            cases h6 : c2.errPending with
            | false => rfl
            | true => have := h5 h6; rw [h3] at this; cases this) m hm
      exact ⟨m, hm, worker_enabled (hc m) h1 (fun hp => hG m (by omega) c' h1 ⟨hp, h3⟩) (Or.inr ⟨h3, hr⟩)⟩
    obtain ⟨m, hm, e, he, hp⟩ := hserve (by
      intro k
      obtain ⟨m, hm, hroom⟩ := herr (max k n')
      obtain ⟨c', h1⟩ := hex m (by omega)
      cases h3 : c'.errPending with
      | true => exact ⟨m, by omega, .sendErr i, by simp [isWorker], by simp [step, hc m, h1, h3, hroom]⟩
      | false =>
        obtain ⟨m', hm', h⟩ := hsend m (by omega) c' h1 h3
        exact ⟨m', by omega, h⟩) n'
    rw [hw m hm e he] at hp
    cases hp
  · intro n' hn' e he ⟨c1, h1⟩ hG
    rcases step_work (hx.event n' e he) (hc (n' + 1)) h1 with ⟨r, _, h⟩ | ⟨c2, h2, h3, h4, h5⟩
    · exact absurd ⟨c1, h1, h⟩ hG
    · right
      refine ⟨⟨c2, h2⟩, ?_⟩
      simp only [h1, h2]
      have hle : (if c2.errPending then 1 else 0) ≤ (if c1.errPending then 1 else 0) := by
        cases h6 : c2.errPending with
        | false => simp
        | true => rw [h4 h6]; exact Nat.le_refl _
      refine ⟨by omega, fun hw => ?_⟩
      rcases h5 hw with h5 | ⟨h5, h6⟩
      · omega
      · rw [h5, h6]
        simp only [if_true, Bool.false_eq_true, if_false]
        omega

/-- What is decoded on a connection is received. -/
theorem conn_received (hx : ReceiverExec t q ev st) (hcons : Consumed t q ev st) (hc : ∀ n, (st n).crashed = false)
    (herr : ErrorsDrained st) {i : Nat} (hserve : Served t q i ev st) {n : Nat} {c : Conn} (hi : (st n).conns[i]? = some c) :
    ∃ m, n ≤ m ∧ decoded (st n) i c <+: ofConn i (st m).got := by
  obtain ⟨m, hm, h⟩ := conn_sends hx hcons hc herr hserve hi
  obtain ⟨m', hm', h'⟩ := queue_received hx hcons hc m
  refine ⟨m', by omega, h.trans ?_⟩
  obtain ⟨r, hr⟩ := h'
  rw [← hr, ofConn_append, ofConn_append]
  exact List.prefix_append _ _

end

/-! ## finite histories as executions -/

/-- A finite history, then nothing. -/
def finSt (t : Transport) (q : Nat) (es : List Event) (n : Nat) : State := (run t q init (es.take n)).getD init

theorem fin_exec {t : Transport} {q : Nat} {es : List Event} {s : State} (h : run t q init es = some s) :
    ReceiverExec t q (fun n => es[n]?) (finSt t q es) := by
  have hpre : ∀ n, ∃ s1, run t q init (es.take n) = some s1 := by
    intro n
    rw [← List.take_append_drop n es, run_append] at h
    cases h1 : run t q init (es.take n) with
    | none => rw [h1] at h; cases h
    | some s1 => exact ⟨s1, rfl⟩
  refine ⟨rfl, ?_, ?_⟩
  · intro n e he
    obtain ⟨s1, h1⟩ := hpre n
    obtain ⟨s2, h2⟩ := hpre (n + 1)
    simp only [finSt, h1, h2, Option.getD_some]
    rw [List.take_add_one, he, Option.toList, run_append, h1] at h2
    simp only [Option.bind_some, run] at h2
    cases h3 : step t q s1 e with
    | none => rw [h3] at h2; cases h2
    | some s3 => rw [h3] at h2; exact h2
  · intro n he
    simp only [finSt]
    rw [List.take_add_one, he]
    simp

theorem fin_end {t : Transport} {q : Nat} {es : List Event} {s : State} (h : run t q init es = some s) {n : Nat} (hn : es.length ≤ n) :
    finSt t q es n = s := by
  unfold finSt
  rw [List.take_of_length_le hn, h]
  rfl

theorem fin_alive {t : Transport} {q : Nat} {es : List Event} {s : State} (h : run t q init es = some s) (hc : s.crashed = false) (n : Nat) :
    (finSt t q es n).crashed = false := by
  cases hcr : (finSt t q es n).crashed with
  | false => rfl
  | true =>
    exfalso
    have hx := fin_exec h
    have := stays hx (fun s => s.crashed = true) n hcr (by
      intro m _ e he hm
      have := hx.event m e he
      simp [step, hm] at this) (max n es.length) (Nat.le_max_left _ _)
    rw [fin_end h (Nat.le_max_right _ _), hc] at this
    cases this

/-- If nothing is left to do at its end, it meets the hypotheses. -/
theorem fin_fair {t : Transport} {q : Nat} {es : List Event} {s : State} (h : run t q init es = some s) (hp : s.pipeline = [])
    (he : s.errs < errCap) (hcn : ∀ c ∈ s.conns, c.pending = [] ∧ c.errPending = false) (i : Nat) :
    Consumed t q (fun n => es[n]?) (finSt t q es) ∧ ErrorsDrained (finSt t q es) ∧ Served t q i (fun n => es[n]?) (finSt t q es) := by
  have hno : ∀ e, (isReceive e = true ∨ isWorker i e = true) → step t q s e = none := by
    intro e hr
    have hget : ∀ (j : Nat) (c : Conn), s.conns[j]? = some c → c.pending = [] ∧ c.errPending = false :=
      fun j c hj => hcn c (List.mem_of_getElem? hj)
    unfold step
    split
    · rfl
    cases e with
    | recv => simp [hp]
    | sendErr j =>
      simp only
      cases hj : s.conns[j]? with
      | none => rfl
      | some c => simp [(hget j c hj).2]
    | sendMsg j =>
      simp only
      cases hj : s.conns[j]? with
      | none => rfl
      | some c => simp [(hget j c hj).1]
    | handoff j =>
      simp only
      cases hj : s.conns[j]? with
      | none => rfl
      | some c => simp [(hget j c hj).1]
    | _ => simp [isReceive, isWorker] at hr
  refine ⟨fun n => ⟨max n es.length, Nat.le_max_left _ _, Or.inr ?_⟩, fun n => ⟨max n es.length, Nat.le_max_left _ _, ?_⟩, fun hen => ?_⟩
  · intro e hr
    rw [fin_end h (Nat.le_max_right _ _)]
    exact hno e (Or.inl hr)
  · rw [fin_end h (Nat.le_max_right _ _)]; exact he
  · obtain ⟨m, hm, e, h1, h2⟩ := hen es.length
    rw [fin_end h hm] at h2
    exact absurd (hno e (Or.inr h1)) h2

end Syslog5424.Recv
