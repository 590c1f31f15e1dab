import Verif.Lemmas.Fair
import Verif.Props.Sender
/-! # Property C82: what a sender does eventually -/
namespace Syslog5424
open Spec Sender

/-- Steps to the beginning of a flush, the lock taken. -/
def rankLoop (s : State) : Nat :=
  match s.pc with
  | .loop _ => 0
  | .lock _ => 2
  | .connect _ => 3
  | .test _ => 4
  | .select => 5
  | .drain => 5
  | .unlock _ => 6
  | .errConn _ _ => 6
  | .errWrite _ _ => 7
  | .write _ k _ => 10 + (s.queue.length - k)
  | _ => 0

/-- Steps to the end of the flush. -/
def rankFlush (s : State) : Nat :=
  match s.pc with
  | .loop _ => if s.queue = [] then 1 else s.queue.length + 3
  | .write _ k _ => 2 + (s.queue.length - k)
  | _ => 0

theorem rankLoop_step {t : Transport} {fr : List Bytes} {a b : State} {e : Event} (hi : Inv fr a) (hs : step t a e = some b)
    (hf : fails e = false) (hna : b.endAsked = false) (hg : ¬ ∃ f, a.pc = .loop f) :
    rankLoop b ≤ rankLoop a ∧ (isRunner e = true → rankLoop b < rankLoop a) := by
  have hl := hi.lock
  have hfin := hi.fin
  obtain ⟨_, htr⟩ := step_tr hs
  cases htr
  case sendOk m x hm hl' =>
    have : holds a.pc = false := by rw [← hl]; exact hl'
    refine ⟨?_, by simp [isRunner]⟩
    simp only [rankLoop]
    cases hpc : a.pc <;> simp_all [holds]
  case writeOk f k n x hpc hx =>
    have hlt : k < a.queue.length := by
      rcases Nat.lt_or_ge k a.queue.length with h1 | h1
      · exact h1
      · rw [List.getElem?_eq_none h1] at hx; simp at hx
    simp only [rankLoop, hpc]
    omega
  case writeEnd f k n hpc hk => simp only [rankLoop, hpc]; omega
  case writeNobufs => simp [fails] at hf
  case writeErr => simp [fails] at hf
  case connErr => simp [fails] at hf
  case loopMore f hpc _ => exact absurd ⟨f, hpc⟩ hg
  case loopEnd f hpc _ => exact absurd ⟨f, hpc⟩ hg
  all_goals simp_all [rankLoop, isRunner, ret, ending]

/-- The flush goes on, or ends with an empty queue. -/
theorem rankFlush_step {t : Transport} {fr : List Bytes} {a b : State} {e : Event} (hi : Inv fr a) (hs : step t a e = some b)
    (hf : fails e = false) (hI : ∃ f, a.pc = .loop f ∨ ∃ k n, a.pc = .write f k n) :
    (∃ f, b.pc = .unlock f ∧ b.queue = []) ∨
    ((∃ f, b.pc = .loop f ∨ ∃ k n, b.pc = .write f k n) ∧ rankFlush b ≤ rankFlush a ∧
      (isRunner e = true → rankFlush b < rankFlush a)) := by
  have hl := hi.lock
  have hlk : a.locked = true := by
    rw [hl]
    obtain ⟨f, h | ⟨k, n, h⟩⟩ := hI <;> simp [h, holds]
  by_cases hr : isRunner e = false
  · right
    obtain ⟨h1, _, _, _, h2, _⟩ := other_keeps hr hs
    refine ⟨by rw [h1]; exact hI, ?_, by simp [hr]⟩
    simp only [rankFlush, h1, h2 hlk]
    exact Nat.le_refl _
  replace hr : isRunner e = true := by simpa using hr
  obtain ⟨_, htr⟩ := step_tr hs
  cases htr
  case loopMore f hpc hq =>
    right
    refine ⟨⟨f, Or.inr ⟨0, 0, rfl⟩⟩, ?_⟩
    simp only [rankFlush, hpc, if_neg hq]
    omega
  case loopEnd f hpc hq => exact Or.inl ⟨f, rfl, hq⟩
  case writeEnd f k n hpc hk =>
    right
    obtain ⟨h1, h2⟩ := hi.pos f k n hpc
    have hke : k = a.queue.length := by omega
    have : consume a.queue n = [] := by rw [h2, hke, List.take_length]; exact consume_all _
    refine ⟨⟨f, Or.inl rfl⟩, ?_⟩
    simp only [rankFlush, hpc, this, if_true]
    omega
  case writeOk f k n x hpc hx =>
    right
    have hlt : k < a.queue.length := by
      rcases Nat.lt_or_ge k a.queue.length with h1 | h1
      · exact h1
      · rw [List.getElem?_eq_none h1] at hx; simp at hx
    refine ⟨⟨f, Or.inr ⟨k + 1, n + x.length, rfl⟩⟩, ?_⟩
    simp only [rankFlush, hpc]
    omega
  case writeNobufs => simp [fails] at hf
  case writeErr => simp [fails] at hf
  case connErr => simp [fails] at hf
  all_goals (obtain ⟨f', h | ⟨k', n', h⟩⟩ := hI <;> simp_all [isRunner])

/-- From the beginning of a flush on, the queue becomes empty. -/
theorem flush_ends {t : Transport} {ev : Nat → Option Event} {st : Nat → State} (hx : SenderExec t ev st)
    (hfair : Running t ev st) (herr : ErrorsRead st) (N : Nat) (hN : ∀ n, N ≤ n → ∀ e, ev n = some e → fails e = false)
    (hc : ∀ n, (st n).crashed = false) (n : Nat) (hn : N ≤ n) (h : ∃ f, (st n).pc = .loop f ∨ ∃ k m, (st n).pc = .write f k m) :
    ∃ m, n ≤ m ∧ ∃ f, (st m).pc = .unlock f ∧ (st m).queue = [] := by
  refine eventually hx isRunner (fun s => ∃ f, s.pc = .loop f ∨ ∃ k n, s.pc = .write f k n)
    (fun s => ∃ f, s.pc = .unlock f ∧ s.queue = []) rankFlush N ?_ ?_ n hn h
  · intro n hn hI
    -- wait for a move of the goroutine, or for the impossible
    obtain ⟨m, hm, h | h | h⟩ := runner_moves hx hfair herr n
    · exact ⟨m, hm, Or.inl h⟩
    · refine Classical.byContradiction fun hno => ?_
      have hr : ∀ j, n ≤ j → ∀ e, ev j = some e → isRunner e = false := by
        intro j hj e he
        cases h : isRunner e with
        | false => rfl
        | true => exact absurd ⟨j, hj, Or.inl ⟨e, he, h⟩⟩ hno
      have := stays hx (fun s => ∃ f, s.pc = .loop f ∨ ∃ k n, s.pc = .write f k n) n hI (by
        intro j hj e he hp
        rw [(other_keeps (hr j hj e he) (hx.event j e he)).1]; exact hp) m hm
      obtain ⟨f, h' | ⟨k, n', h'⟩⟩ := this <;> rw [h] at h' <;> cases h'
    · rw [hc m] at h; cases h
  · intro n hn e he hI _
    exact rankFlush_step (inv_at hx n) (hx.event n e he) (hN n hn e he) hI

/-- **C82.** In every endless execution of a sender whose goroutine keeps running and whose errors are read, once the
network has recovered (before, anything may fail, any number of times) and as long as `End` is not called and nothing
crashes: whatever was accepted by `Send` up to any moment is entirely written at some later moment. -/
theorem C82_written (t : Transport) (ev : Nat → Option Event) (st : Nat → State) (hx : SenderExec t ev st)
    (hfair : Running t ev st) (herr : ErrorsRead st) (hrec : Recovers ev) (hend : ∀ n, (st n).endAsked = false)
    (hc : ∀ n, (st n).crashed = false) (n : Nat) :
    ∃ m, n ≤ m ∧ (frames t (past ev n)).flatten <+: wire (st m) := by
  obtain ⟨N, hN⟩ := hrec
  have hdone : ∀ n, (st n).pc ≠ .done := by
    intro n h
    have := (inv_at hx n).fin (by rw [h]; rfl)
    rw [hend n] at this; cases this
  -- to the next flush
  obtain ⟨m, hm, f, hf⟩ := eventually hx isRunner (fun _ => True) (fun s => ∃ f, s.pc = .loop f) rankLoop N
    (by
      intro n _ _
      obtain ⟨m, hm, h | h | h⟩ := runner_moves hx hfair herr n
      · exact ⟨m, hm, Or.inl h⟩
      · exact absurd h (hdone m)
      · rw [hc m] at h; cases h)
    (by
      intro n hn e he _ hg
      right
      exact ⟨trivial, rankLoop_step (inv_at hx n) (hx.event n e he) (hN n hn e he) (hend (n + 1)) hg⟩)
    (max n N) (Nat.le_max_right _ _) trivial
  -- to its end
  obtain ⟨m', hm', f', hpc, hq⟩ := flush_ends hx hfair herr N hN hc m (by omega) ⟨f, Or.inl hf⟩
  refine ⟨m', by omega, ?_⟩
  have h34 := C34_exactly_once t (past ev m') (st m') (history_past hx m')
  rw [hpc, hq] at h34
  simp only [List.flatten_nil, List.drop_nil, List.append_nil] at h34
  rw [h34]
  obtain ⟨r, hr⟩ := past_prefix ev (show n ≤ m' by omega)
  rw [← hr, frames_append, List.flatten_append]
  exact List.prefix_append _ _

/-! ## `End` -/

/-- Steps to the select. -/
def rankSelect (s : State) : Nat :=
  match s.pc with
  | .unlock _ => 1
  | .errConn _ _ => 1
  | .errWrite _ _ => 2
  | .loop _ => if s.queue = [] then 2 else s.queue.length + 4
  | .write _ k _ => 3 + (s.queue.length - k)
  | .lock _ => s.queue.length + 5
  | .connect _ => s.queue.length + 6
  | .test _ => s.queue.length + 7
  | _ => 0

/-- Steps to the end, for the deferred function. -/
def rankEnd (s : State) : Nat :=
  match s.pc with
  | .closeDone => 1
  | .closeOut => 2
  | .drain => if s.queue = [] then 3 else s.queue.length + 11
  | .unlock _ => if s.queue = [] then 4 else s.queue.length + 12
  | .errConn _ _ => s.queue.length + 12
  | .errWrite _ _ => s.queue.length + 13
  | .loop _ => if s.queue = [] then 5 else s.queue.length + 7
  | .write _ k _ => 6 + (s.queue.length - k)
  | .lock _ => s.queue.length + 8
  | .connect _ => s.queue.length + 9
  | .test _ => s.queue.length + 10
  | _ => 0

theorem consume_at_end {fr : List Bytes} {a : State} (hi : Inv fr a) {f : Bool} {k n : Nat} (hpc : a.pc = .write f k n)
    (hk : a.queue.length ≤ k) : consume a.queue n = [] := by
  obtain ⟨h1, h2⟩ := hi.pos f k n hpc
  have hke : k = a.queue.length := by omega
  rw [h2, hke, List.take_length]; exact consume_all _

theorem rankSelect_step {t : Transport} {fr : List Bytes} {a b : State} {e : Event} (hi : Inv fr a) (hs : step t a e = some b)
    (hf : fails e = false) (hsend : ∀ m, e ≠ .send m) (hg : a.pc ≠ .select) (he : ending a.pc = false) :
    ending b.pc = false ∧ rankSelect b ≤ rankSelect a ∧ (isRunner e = true → rankSelect b < rankSelect a) := by
  by_cases hr : isRunner e = false
  · obtain ⟨h1, _, _, _, _, h2⟩ := other_keeps hr hs
    refine ⟨by rw [h1]; exact he, ?_, by simp [hr]⟩
    simp only [rankSelect, h1, h2 hsend]
    exact Nat.le_refl _
  replace hr : isRunner e = true := by simpa using hr
  obtain ⟨_, htr⟩ := step_tr hs
  cases htr
  case writeOk f k n x hpc hx =>
    have hlt : k < a.queue.length := by
      rcases Nat.lt_or_ge k a.queue.length with h1 | h1
      · exact h1
      · rw [List.getElem?_eq_none h1] at hx; simp at hx
    simp only [rankSelect, hpc, ending] at he ⊢
    exact ⟨he, by omega, by omega⟩
  case writeEnd f k n hpc hk =>
    simp only [rankSelect, hpc, ending, consume_at_end hi hpc hk, if_true] at he ⊢
    exact ⟨he, by omega, by omega⟩
  case loopMore f hpc hq =>
    simp only [rankSelect, hpc, ending, if_neg hq] at he ⊢
    exact ⟨he, by omega, by omega⟩
  case lock f hpc _ =>
    simp only [rankSelect, hpc, ending] at he ⊢
    refine ⟨he, ?_⟩
    split <;> omega
  all_goals simp_all [rankSelect, isRunner, ret, ending, fails]

theorem rankEnd_step {t : Transport} {fr : List Bytes} {a b : State} {e : Event} (hi : Inv fr a) (hs : step t a e = some b)
    (hf : fails e = false) (hsend : ∀ m, e ≠ .send m) (hc : b.crashed = false) (hg : a.endCompleted ≠ true)
    (he : ending a.pc = true) :
    b.endCompleted = true ∨
    (ending b.pc = true ∧ rankEnd b ≤ rankEnd a ∧ (isRunner e = true → rankEnd b < rankEnd a)) := by
  by_cases hr : isRunner e = false
  · right
    obtain ⟨h1, _, _, _, _, h2⟩ := other_keeps hr hs
    refine ⟨by rw [h1]; exact he, ?_, by simp [hr]⟩
    simp only [rankEnd, h1, h2 hsend]
    exact Nat.le_refl _
  replace hr : isRunner e = true := by simpa using hr
  have hcomp := hi.comp
  obtain ⟨_, htr⟩ := step_tr hs
  cases htr
  case closeDone => exact Or.inl rfl
  case closeErr hpc => rw [hpc] at hcomp; simp at hcomp; exact absurd hcomp hg
  case writeOk f k n x hpc hx =>
    right
    have hlt : k < a.queue.length := by
      rcases Nat.lt_or_ge k a.queue.length with h1 | h1
      · exact h1
      · rw [List.getElem?_eq_none h1] at hx; simp at hx
    simp only [rankEnd, hpc, ending] at he ⊢
    exact ⟨he, by omega, by omega⟩
  case writeEnd f k n hpc hk =>
    right
    simp only [rankEnd, hpc, ending, consume_at_end hi hpc hk, if_true] at he ⊢
    exact ⟨he, by omega, by omega⟩
  case loopMore f hpc hq =>
    right
    simp only [rankEnd, hpc, ending, if_neg hq] at he ⊢
    exact ⟨he, by omega, by omega⟩
  case loopEnd f hpc hq =>
    right
    simp only [rankEnd, hpc, ending, if_pos hq] at he ⊢
    exact ⟨he, by omega, by omega⟩
  case lock f hpc _ =>
    right
    simp only [rankEnd, hpc, ending] at he ⊢
    refine ⟨he, ?_⟩
    split <;> omega
  case errConn f e hpc _ =>
    right
    simp only [hpc, ending] at he
    subst he
    simp only [rankEnd, hpc, ending, ret, if_true]
    refine ⟨trivial, ?_⟩
    split <;> omega
  case errWrite f e hpc _ =>
    right
    simp only [rankEnd, hpc, ending] at he ⊢
    refine ⟨he, ?_⟩
    split <;> omega
  case unlock f hpc =>
    right
    simp only [hpc, ending] at he
    subst he
    simp only [rankEnd, hpc, ending, ret, if_true]
    refine ⟨trivial, ?_⟩
    split <;> omega
  case drainMore hpc hq =>
    right
    simp only [rankEnd, hpc, ending, if_neg hq]
    exact ⟨trivial, by omega, by omega⟩
  case drainEnd hpc hq =>
    right
    simp only [rankEnd, hpc, ending, if_pos hq]
    exact ⟨trivial, by omega, by omega⟩
  all_goals simp_all [rankEnd, isRunner, ending, fails]

/-- **C82.** `End` returns: in every endless execution of a sender whose goroutine keeps running and whose errors are
read, if `End` was called, then once the network has recovered and `Send` is not called any more, `End` returns (unless
the program crashes, C36). -/
theorem C82_end_returns (t : Transport) (ev : Nat → Option Event) (st : Nat → State) (hx : SenderExec t ev st)
    (hfair : Running t ev st) (herr : ErrorsRead st) (hrec : Recovers ev) (hstop : SendsStop ev) (hnotice : NoticesEnd ev st)
    (hend : ∃ n, (st n).endAsked = true) (hc : ∀ n, (st n).crashed = false) : ∃ m, (st m).endCompleted = true := by
  refine Classical.byContradiction fun hno => ?_
  have hnc : ∀ m, (st m).endCompleted ≠ true := fun m h => hno ⟨m, h⟩
  have hnd : ∀ m, (st m).pc ≠ .done := by
    intro m h
    have := (inv_at hx m).comp
    rw [h] at this
    exact hnc m (by simpa using this)
  have hmove : ∀ n, ∃ m, n ≤ m ∧ ∃ e, ev m = some e ∧ isRunner e = true := by
    intro n
    obtain ⟨m, hm, h | h | h⟩ := runner_moves hx hfair herr n
    · exact ⟨m, hm, h⟩
    · exact absurd h (hnd m)
    · rw [hc m] at h; cases h
  obtain ⟨N, hN⟩ := hrec
  obtain ⟨N', hN'⟩ := hstop
  obtain ⟨n0, hn0⟩ := hend
  have hasked : ∀ m, n0 ≤ m → (st m).endAsked = true := stays hx (fun s => s.endAsked = true) n0 hn0 (by
    intro m _ e he h
    cases hr : isRunner e with
    | false => exact (other_keeps hr (hx.event m e he)).2.2.1 h
    | true =>
      obtain ⟨_, htr⟩ := step_tr (hx.event m e he)
      generalize st (m + 1) = b at htr
      cases htr <;> simp_all [isRunner])
  have hB : ∀ n, max N N' ≤ n → ending (st n).pc = true → False := by
    intro n hn hen
    obtain ⟨m, _, h⟩ := eventually hx isRunner (fun s => ending s.pc = true) (fun s => s.endCompleted = true) rankEnd (max N N')
      (fun n _ _ => by obtain ⟨m, h1, h2⟩ := hmove n; exact ⟨m, h1, Or.inl h2⟩)
      (by
        intro n hn e he hI hg
        exact rankEnd_step (inv_at hx n) (hx.event n e he) (hN n (by omega) e he)
          (fun m h => hN' n (by omega) m (by rw [he, h])) (hc (n + 1)) hg hI) n hn hen
    exact hnc m h
  have hpersist : ∀ n, ending (st n).pc = true → False := by
    intro n hen
    have := stays hx (fun s => ending s.pc = true) n hen (by
      intro m _ e he h
      cases hr : isRunner e with
      | false => rw [(other_keeps hr (hx.event m e he)).1]; exact h
      | true =>
        obtain ⟨_, htr⟩ := step_tr (hx.event m e he)
        generalize st (m + 1) = b at htr
        cases htr <;> simp_all [isRunner, ending, ret]) (max n (max N N')) (Nat.le_max_left _ _)
    exact hB _ (Nat.le_max_right _ _) this
  have hsel : ∀ n, ∃ m, n ≤ m ∧ (st m).pc = .select ∧ (st m).endAsked = true := by
    intro n
    obtain ⟨m, hm, h⟩ := eventually hx isRunner (fun s => ending s.pc = false) (fun s => s.pc = .select) rankSelect (max N N')
      (fun n _ _ => by obtain ⟨m, h1, h2⟩ := hmove n; exact ⟨m, h1, Or.inl h2⟩)
      (by
        intro n hn e he hI hg
        exact Or.inr (rankSelect_step (inv_at hx n) (hx.event n e he) (hN n (by omega) e he)
          (fun m h => hN' n (by omega) m (by rw [he, h])) hg hI)) (max n (max n0 (max N N'))) (by omega)
      (by
        cases h : ending (st (max n (max n0 (max N N')))).pc with
        | false => rfl
        | true => exact absurd h (fun h => hpersist _ h))
    exact ⟨m, by omega, h, hasked m (by omega)⟩
  obtain ⟨m, hm⟩ := hnotice hsel
  obtain ⟨_, htr⟩ := step_tr (hx.event m _ hm)
  refine hpersist (m + 1) ?_
  generalize st (m + 1) = b at htr
  cases htr
  rfl

/-! ## `Send` -/

/-- Steps to the release of the lock. -/
def rankLock (s : State) : Nat :=
  match s.pc with
  | .unlock _ => 1
  | .errWrite _ _ => 2
  | .loop _ => if s.queue = [] then 2 else s.queue.length + 4
  | .write _ k _ => 3 + (s.queue.length - k)
  | _ => 0

theorem rankLock_step {t : Transport} {fr : List Bytes} {a b : State} {e : Event} (hi : Inv fr a) (hs : step t a e = some b)
    (hl : a.locked = true) :
    b.locked = false ∨ (b.locked = true ∧ rankLock b ≤ rankLock a ∧ (isRunner e = true → rankLock b < rankLock a)) := by
  have hh : holds a.pc = true := by rw [← hi.lock]; exact hl
  by_cases hr : isRunner e = false
  · obtain ⟨h1, _, _, _, h2, _⟩ := other_keeps hr hs
    have hb : b.locked = a.locked := by
      obtain ⟨_, htr⟩ := step_tr hs
      cases htr <;> simp_all [isRunner]
    right
    refine ⟨by rw [hb]; exact hl, ?_, by simp [hr]⟩
    simp only [rankLock, h1, h2 hl]
    exact Nat.le_refl _
  replace hr : isRunner e = true := by simpa using hr
  obtain ⟨_, htr⟩ := step_tr hs
  cases htr
  case unlock => exact Or.inl rfl
  case writeOk f k n x hpc hx =>
    right
    have hlt : k < a.queue.length := by
      rcases Nat.lt_or_ge k a.queue.length with h1 | h1
      · exact h1
      · rw [List.getElem?_eq_none h1] at hx; simp at hx
    refine ⟨hl, ?_⟩
    simp only [rankLock, hpc]
    omega
  case writeNobufs => right; rename_i hpc _ _; refine ⟨hl, ?_⟩; simp only [rankLock, hpc]; omega
  case writeErr => right; rename_i hpc _ _; refine ⟨hl, ?_⟩; simp only [rankLock, hpc]; omega
  case writeEnd f k n hpc hk =>
    right
    refine ⟨hl, ?_⟩
    simp only [rankLock, hpc, consume_at_end hi hpc hk, if_true]
    omega
  case loopMore f hpc hq =>
    right
    refine ⟨hl, ?_⟩
    simp only [rankLock, hpc, if_neg hq]
    omega
  all_goals simp_all [rankLock, isRunner, holds]

/-- **C82.** `Send` does not wait for ever: in every endless execution of a sender whose goroutine keeps running and whose
errors are read (writes and connects may fail for ever), if nothing crashes, then again and again a call of `Send` can
return. -/
theorem C82_send_returns (t : Transport) (ev : Nat → Option Event) (st : Nat → State) (hx : SenderExec t ev st)
    (hfair : Running t ev st) (herr : ErrorsRead st) (hc : ∀ n, (st n).crashed = false)
    (m : Message) (b : Bytes) (hm : m.marshal = .ret (.ok b)) (n : Nat) :
    ∃ k, n ≤ k ∧ step t (st k) (.send m) = some { st k with queue := (st k).queue ++ [t.encode b] } := by
  have hgo : ∃ k, n ≤ k ∧ (st k).locked = false := by
    cases hl : (st n).locked with
    | false => exact ⟨n, Nat.le_refl _, hl⟩
    | true =>
      refine eventually hx isRunner (fun s => s.locked = true) (fun s => s.locked = false) rankLock 0 ?_ ?_ n (Nat.zero_le _) hl
      · intro n _ hl
        obtain ⟨k, hk, h | h | h⟩ := runner_moves hx hfair herr n
        · exact ⟨k, hk, Or.inl h⟩
        · refine ⟨k, hk, Or.inr ?_⟩
          have := (inv_at hx k).lock
          rw [h] at this
          exact this
        · rw [hc k] at h; cases h
      · intro n _ e he hl _
        exact rankLock_step (inv_at hx n) (hx.event n e he) hl
  obtain ⟨k, hk, hl⟩ := hgo
  refine ⟨k, hk, ?_⟩
  simp [step, hc k, hm, hl]

/-! ## executions that meet the hypotheses -/

/-- The place in a sequence of events that is repeated for ever from `p` on, with period `l`. -/
def lasso (p l n : Nat) : Nat := if n < p then n else p + (n - p) % l

theorem lasso_succ (p l n : Nat) (hl : 0 < l) :
    lasso p l n < p + l ∧ lasso p l (n + 1) = if lasso p l n + 1 = p + l then p else lasso p l n + 1 := by
  have h1 := Nat.mod_lt (n - p) hl
  unfold lasso
  by_cases h : n < p
  · rw [if_pos h]
    refine ⟨by omega, ?_⟩
    by_cases h2 : n + 1 < p
    · rw [if_pos h2, if_neg (by omega)]
    · rw [if_neg h2, show n + 1 - p = 0 by omega, Nat.zero_mod]
      split <;> omega
  · rw [if_neg h, if_neg (by omega), show n + 1 - p = (n - p) + 1 by omega]
    refine ⟨by omega, ?_⟩
    rw [Nat.add_mod]
    by_cases h3 : (n - p) % l + 1 = l
    · rw [if_pos (by omega)]
      rcases Nat.lt_or_ge 1 l with h4 | h4
      · rw [Nat.mod_eq_of_lt h4, h3, Nat.mod_self]; omega
      · have : l = 1 := by omega
        subst this
        omega
    · rw [if_neg (by omega), Nat.mod_eq_of_lt (show 1 < l by omega), Nat.mod_eq_of_lt (by omega)]; omega

/-- The state after the first `i` events of `es`. -/
def after (t : Transport) (es : List Event) (i : Nat) : State := (run t init (es.take i)).getD init

/-- The events `es`, those from `p` on repeated for ever. -/
def lassoEv (es : List Event) (p l n : Nat) : Option Event := es[lasso p l n]?

def lassoSt (t : Transport) (es : List Event) (p l n : Nat) : State := after t es (lasso p l n)

theorem lasso_exec (t : Transport) (es : List Event) (p l : Nat) (hl : 0 < l)
    (hrun : ∀ i, i < p + l → (match es[i]? with | some e => step t (after t es i) e | none => some (after t es i)) =
      some (after t es (if i + 1 = p + l then p else i + 1))) :
    SenderExec t (lassoEv es p l) (lassoSt t es p l) := by
  refine ⟨?_, ?_, ?_⟩
  · have : lasso p l 0 = 0 := by
      unfold lasso
      split
      · rfl
      · rw [Nat.zero_sub, Nat.zero_mod]; omega
    simp only [lassoSt, this]
    rfl
  · intro n e he
    obtain ⟨h1, h2⟩ := lasso_succ p l n hl
    have := hrun _ h1
    simp only [lassoEv] at he
    rw [he] at this
    simp only [lassoSt, h2]
    exact this
  · intro n he
    obtain ⟨h1, h2⟩ := lasso_succ p l n hl
    have := hrun _ h1
    simp only [lassoEv] at he
    rw [he] at this
    simp only [lassoSt, h2]
    exact (Option.some.inj this).symm

/-- What holds at every place holds at every moment. -/
theorem lasso_all (p l : Nat) (hl : 0 < l) (Q : Nat → Prop) (h : ∀ i, i < p + l → Q i) (n : Nat) : Q (lasso p l n) :=
  h _ (lasso_succ p l n hl).1

/-- A place of the loop is met again and again. -/
theorem lasso_again (p l i : Nat) (hi : i < l) (n : Nat) : ∃ m, n ≤ m ∧ lasso p l m = p + i := by
  refine ⟨p + (n * l + i), ?_, ?_⟩
  · have : n * 1 ≤ n * l := Nat.mul_le_mul_left _ (by omega)
    omega
  · unfold lasso
    rw [if_neg (by omega), Nat.add_sub_cancel_left, Nat.mul_comm, Nat.mul_add_mod, Nat.mod_eq_of_lt hi]

/-- A connect fails, its error is read, then the message is sent and nothing more happens than the ticker. -/
def exForeverOf (m : Message) (size : Nat) : List Event :=
  [.send m, .tick, .tau, .connect (some 1), .tau, .recvErr (.connect 1), .tick, .tau, .connect none, .tau, .tau,
    .write size none, .tau, .tau, .tau,
    .tick, .tau, .tau, .tau, .tau]

def exForever : List Event := exForeverOf (exMsg b!"x") 39


theorem exForever_steps : ∀ i, i < 20 → (match exForever[i]? with | some e => step .lfEnded (after .lfEnded exForever i) e | none => some (after .lfEnded exForever i)) =
      some (after .lfEnded exForever (if i + 1 = 20 then 15 else i + 1)) := by decide +kernel

/-- Such an execution is fair, its errors are read, and the network recovers. -/
theorem exForeverOf_fair {t : Transport} {m : Message} {size : Nat}
    (hsteps : ∀ i, i < 20 → (match (exForeverOf m size)[i]? with | some e => step t (after t (exForeverOf m size) i) e | none => some (after t (exForeverOf m size) i)) =
      some (after t (exForeverOf m size) (if i + 1 = 20 then 15 else i + 1)))
    (herr : (after t (exForeverOf m size) 15).errs = [])
    (hend : ∀ i, i < 20 → (after t (exForeverOf m size) i).endAsked = false) (hcr : ∀ i, i < 20 → (after t (exForeverOf m size) i).crashed = false) :
    SenderExec t (lassoEv (exForeverOf m size) 15 5) (lassoSt t (exForeverOf m size) 15 5) ∧
    Running t (lassoEv (exForeverOf m size) 15 5) (lassoSt t (exForeverOf m size) 15 5) ∧
    ErrorsRead (lassoSt t (exForeverOf m size) 15 5) ∧ Recovers (lassoEv (exForeverOf m size) 15 5) ∧
    (∀ n, (lassoSt t (exForeverOf m size) 15 5 n).endAsked = false) ∧ (∀ n, (lassoSt t (exForeverOf m size) 15 5 n).crashed = false) ∧
    (∀ n nb e, lassoEv (exForeverOf m size) 15 5 n ≠ some (.write nb (some e))) := by
  have hall : ∀ i, i < 20 → ∀ e, (exForeverOf m size)[i]? = some e → (i ≠ 3 → fails e = false) ∧ ∀ nb x, e ≠ .write nb (some x) := by
    intro i hi e he
    match i, hi with
    | 0, _ => cases he; exact ⟨fun _ => rfl, by simp⟩
    | 1, _ => cases he; exact ⟨fun _ => rfl, by simp⟩
    | 2, _ => cases he; exact ⟨fun _ => rfl, by simp⟩
    | 3, _ => cases he; exact ⟨fun h => absurd rfl h, by simp⟩
    | 4, _ => cases he; exact ⟨fun _ => rfl, by simp⟩
    | 5, _ => cases he; exact ⟨fun _ => rfl, by simp⟩
    | 6, _ => cases he; exact ⟨fun _ => rfl, by simp⟩
    | 7, _ => cases he; exact ⟨fun _ => rfl, by simp⟩
    | 8, _ => cases he; exact ⟨fun _ => rfl, by simp⟩
    | 9, _ => cases he; exact ⟨fun _ => rfl, by simp⟩
    | 10, _ => cases he; exact ⟨fun _ => rfl, by simp⟩
    | 11, _ => cases he; exact ⟨fun _ => rfl, by simp⟩
    | 12, _ => cases he; exact ⟨fun _ => rfl, by simp⟩
    | 13, _ => cases he; exact ⟨fun _ => rfl, by simp⟩
    | 14, _ => cases he; exact ⟨fun _ => rfl, by simp⟩
    | 15, _ => cases he; exact ⟨fun _ => rfl, by simp⟩
    | 16, _ => cases he; exact ⟨fun _ => rfl, by simp⟩
    | 17, _ => cases he; exact ⟨fun _ => rfl, by simp⟩
    | 18, _ => cases he; exact ⟨fun _ => rfl, by simp⟩
    | 19, _ => cases he; exact ⟨fun _ => rfl, by simp⟩
  refine ⟨lasso_exec _ _ 15 5 (by omega) hsteps, ?_, ?_, ⟨4, ?_⟩, ?_, ?_, ?_⟩
  · intro n
    obtain ⟨m, hm, h⟩ := lasso_again 15 5 0 (by omega) n
    exact ⟨m, hm, Or.inl ⟨.tick, by simp only [lassoEv, h]; rfl, rfl⟩⟩
  · intro n _
    obtain ⟨m, hm, h⟩ := lasso_again 15 5 0 (by omega) n
    refine ⟨m, hm, ?_⟩
    simp only [lassoSt, h]
    exact herr
  · intro n hn e he
    have hi : lasso 15 5 n ≠ 3 := by unfold lasso; split <;> omega
    exact (hall _ (lasso_succ 15 5 n (by omega)).1 e he).1 hi
  · exact lasso_all 15 5 (by omega) (fun i => (after t (exForeverOf m size) i).endAsked = false) hend
  · exact lasso_all 15 5 (by omega) (fun i => (after t (exForeverOf m size) i).crashed = false) hcr
  · intro n nb x he
    exact (hall _ (lasso_succ 15 5 n (by omega)).1 _ he).2 nb x rfl

/-- Every hypothesis of `C82_written` and `C82_send_returns` is met by this execution, in which a connect fails and the
message is eventually written. -/
example : SenderExec .lfEnded (lassoEv exForever 15 5) (lassoSt .lfEnded exForever 15 5) ∧
    Running .lfEnded (lassoEv exForever 15 5) (lassoSt .lfEnded exForever 15 5) ∧
    ErrorsRead (lassoSt .lfEnded exForever 15 5) ∧ Recovers (lassoEv exForever 15 5) ∧
    (∀ n, (lassoSt .lfEnded exForever 15 5 n).endAsked = false) ∧ (∀ n, (lassoSt .lfEnded exForever 15 5 n).crashed = false) ∧
    frames .lfEnded (past (lassoEv exForever 15 5) 1) = [b!"<14>1 1970-01-01T00:00:00Z h a 1 - - x\n"] ∧
    wire (lassoSt .lfEnded exForever 15 5 8) = [] := by
  obtain ⟨h1, h2, h3, h4, h5, h6, _⟩ := exForeverOf_fair exForever_steps (by decide +kernel) (by decide +kernel) (by decide +kernel)
  exact ⟨h1, h2, h3, h4, h5, h6, by decide +kernel, by decide +kernel⟩

/-- A message is sent and `End` is called, before anything was written. -/
def exEnded : List Event :=
  [.send (exMsg b!"x"), .endCall, .seeEnd, .tau, .tau, .connect none, .tau, .tau, .write 39 none, .tau, .tau, .tau, .tau, .tau, .tau, .tau]

theorem exEnded_steps : ∀ i, i < 17 → (match exEnded[i]? with | some e => step .lfEnded (after .lfEnded exEnded i) e | none => some (after .lfEnded exEnded i)) =
      some (after .lfEnded exEnded (if i + 1 = 17 then 16 else i + 1)) := by decide +kernel

/-- Every hypothesis of `C82_end_returns` is met by this execution. -/
example : SenderExec .lfEnded (lassoEv exEnded 16 1) (lassoSt .lfEnded exEnded 16 1) ∧
    Running .lfEnded (lassoEv exEnded 16 1) (lassoSt .lfEnded exEnded 16 1) ∧
    ErrorsRead (lassoSt .lfEnded exEnded 16 1) ∧ Recovers (lassoEv exEnded 16 1) ∧ SendsStop (lassoEv exEnded 16 1) ∧
    NoticesEnd (lassoEv exEnded 16 1) (lassoSt .lfEnded exEnded 16 1) ∧
    (∃ n, (lassoSt .lfEnded exEnded 16 1 n).endAsked = true) ∧ (∀ n, (lassoSt .lfEnded exEnded 16 1 n).crashed = false) := by
  have hend : ∀ n, 16 ≤ n → lasso 16 1 n = 16 := by intro n hn; unfold lasso; split <;> omega
  refine ⟨lasso_exec _ _ 16 1 (by omega) exEnded_steps, ?_, ?_, ⟨16, ?_⟩, ⟨16, ?_⟩, ?_, ⟨2, by decide +kernel⟩, ?_⟩
  · intro n
    refine ⟨max n 16, Nat.le_max_left _ _, Or.inr ?_⟩
    intro e he
    simp only [lassoSt, hend _ (Nat.le_max_right n 16)]
    have : after .lfEnded exEnded 16 = ⟨[], [⟨[b!"<14>1 1970-01-01T00:00:00Z h a 1 - - x\n"], true⟩], true, false, [], true, true, true, false, .done⟩ := by
      decide +kernel
    rw [this]
    cases e <;> simp_all [isRunner, step]
  · intro n _
    refine ⟨max n 16, Nat.le_max_left _ _, ?_⟩
    simp only [lassoSt, hend _ (Nat.le_max_right n 16)]
    decide +kernel
  · intro n hn e he
    simp only [lassoEv, hend n hn] at he
    cases he
  · intro n hn m he
    simp only [lassoEv, hend n hn] at he
    cases he
  · intro _
    exact ⟨2, rfl⟩
  · exact lasso_all 16 1 (by omega) (fun i => (after .lfEnded exEnded i).crashed = false) (by decide +kernel)


/-! ## sends that do not stop -/

/-- `Send`, `End`, and then one `Send` after each flush. -/
def exStarved : List Event :=
  [.send (exMsg b!"x"), .endCall, .seeEnd, .tau, .tau, .connect none,
    .tau, .tau, .write 39 none, .tau, .tau, .tau, .send (exMsg b!"x"), .tau, .tau]

/-- The state in the `i`-th place of the loop, with the writes `w` done. -/
def starvedSt (f : Bytes) (w : List Bytes) : Nat → State
  | 0 => ⟨[f], [⟨w, false⟩], true, false, [], true, false, false, false, .lock true⟩
  | 1 => ⟨[f], [⟨w, false⟩], true, true, [], true, false, false, false, .loop true⟩
  | 2 => ⟨[f], [⟨w, false⟩], true, true, [], true, false, false, false, .write true 0 0⟩
  | 3 => ⟨[f], [⟨w ++ [f], false⟩], true, true, [], true, false, false, false, .write true 1 39⟩
  | 4 => ⟨[], [⟨w ++ [f], false⟩], true, true, [], true, false, false, false, .loop true⟩
  | 5 => ⟨[], [⟨w ++ [f], false⟩], true, true, [], true, false, false, false, .unlock true⟩
  | 6 => ⟨[], [⟨w ++ [f], false⟩], true, false, [], true, false, false, false, .drain⟩
  | 7 => ⟨[f], [⟨w ++ [f], false⟩], true, false, [], true, false, false, false, .drain⟩
  | _ => ⟨[f], [⟨w ++ [f], false⟩], true, false, [], true, false, false, false, .test true⟩

def exFrame : Bytes := b!"<14>1 1970-01-01T00:00:00Z h a 1 - - x\n"

theorem starved_step (w : List Bytes) (i : Nat) (hi : i < 9) :
    ∃ e, exStarved[6 + i]? = some e ∧ step .lfEnded (starvedSt exFrame w i) e =
      some (if i = 8 then starvedSt exFrame (w ++ [exFrame]) 0 else starvedSt exFrame w (i + 1)) := by
  have h6 : step .lfEnded (starvedSt exFrame w 6) (.send (exMsg b!"x")) = some (starvedSt exFrame w 7) := by
    simp only [step, exMsg_marshal]; rfl
  match i, hi with
  | 0, _ => exact ⟨_, rfl, rfl⟩
  | 1, _ => exact ⟨_, rfl, rfl⟩
  | 2, _ => exact ⟨_, rfl, rfl⟩
  | 3, _ => exact ⟨_, rfl, rfl⟩
  | 4, _ => exact ⟨_, rfl, rfl⟩
  | 5, _ => exact ⟨_, rfl, rfl⟩
  | 6, _ => exact ⟨_, rfl, h6⟩
  | 7, _ => exact ⟨_, rfl, rfl⟩
  | 8, _ => exact ⟨_, rfl, rfl⟩

/-- The state at the moment `n`. -/
def starved (n : Nat) : State :=
  if n < 6 then after .lfEnded exStarved n else starvedSt exFrame (List.replicate ((n - 6) / 9) exFrame) ((n - 6) % 9)

theorem starved_exec : SenderExec .lfEnded (lassoEv exStarved 6 9) starved := by
  have hev : ∀ n, ∃ e, lassoEv exStarved 6 9 n = some e ∧ step .lfEnded (starved n) e = some (starved (n + 1)) := by
    intro n
    by_cases h : n < 6
    · have : ∀ n, n < 6 → ((exStarved[n]?.map fun e => step .lfEnded (starved n) e) = some (some (starved (n + 1)))) := by decide +kernel
      have := this n h
      simp only [lassoEv, lasso, if_pos h]
      obtain ⟨e, h1, h2⟩ := Option.map_eq_some_iff.mp this
      exact ⟨e, h1, h2⟩
    · obtain ⟨e, h1, h2⟩ := starved_step (List.replicate ((n - 6) / 9) exFrame) ((n - 6) % 9) (Nat.mod_lt _ (by omega))
      refine ⟨e, by simp only [lassoEv, lasso, if_neg h]; exact h1, ?_⟩
      simp only [starved, if_neg h, if_neg (show ¬ n + 1 < 6 by omega)]
      rw [h2]
      by_cases h8 : (n - 6) % 9 = 8
      · rw [if_pos h8, show (n + 1 - 6) % 9 = 0 by omega, show (n + 1 - 6) / 9 = (n - 6) / 9 + 1 by omega, List.replicate_succ']
      · rw [if_neg h8, show (n + 1 - 6) % 9 = (n - 6) % 9 + 1 by omega, show (n + 1 - 6) / 9 = (n - 6) / 9 by omega]
  refine ⟨rfl, ?_, ?_⟩
  · intro n e he
    obtain ⟨e', h1, h2⟩ := hev n
    rw [h1] at he
    cases he
    exact h2
  · intro n he
    obtain ⟨e', h1, _⟩ := hev n
    rw [h1] at he
    cases he

theorem starved_all (Q : State → Prop) (h1 : ∀ n, n < 6 → Q (starved n)) (h2 : ∀ w i, i < 9 → Q (starvedSt exFrame w i)) (n : Nat) :
    Q (starved n) := by
  by_cases h : n < 6
  · exact h1 n h
  · unfold starved
    rw [if_neg h]
    exact h2 _ _ (Nat.mod_lt _ (by omega))

/-- **C82 is violated if sends do not stop**: an execution in which the goroutine keeps running, errors are read (there are
none), nothing fails, the select notices the end, nothing crashes, `End` is called, and it never returns: a message that is
sent between two looks at the queue keeps the sender draining. -/
theorem C82_starved_violated : ∃ ev st, SenderExec .lfEnded ev st ∧ Running .lfEnded ev st ∧ ErrorsRead st ∧ Recovers ev ∧
    NoticesEnd ev st ∧ (∃ n, (st n).endAsked = true) ∧ (∀ n, (st n).crashed = false) ∧ ∀ n, (st n).endCompleted = false := by
  refine ⟨lassoEv exStarved 6 9, starved, starved_exec, ?_, ?_, ⟨0, ?_⟩, ?_, ⟨2, by decide +kernel⟩, ?_, ?_⟩
  · intro n
    obtain ⟨m, hm, h⟩ := lasso_again 6 9 0 (by omega) n
    exact ⟨m, hm, Or.inl ⟨.tau, by simp only [lassoEv, h]; rfl, rfl⟩⟩
  · intro n hn
    exact absurd (starved_all (fun s => s.errs = []) (by decide +kernel)
      (by intro w i hi; match i, hi with
          | 0, _ => rfl | 1, _ => rfl | 2, _ => rfl | 3, _ => rfl | 4, _ => rfl | 5, _ => rfl | 6, _ => rfl | 7, _ => rfl | 8, _ => rfl) n) hn
  · intro n _ e he
    have : ∀ i, i < 6 + 9 → (exStarved[i]?.map fails).getD false = false := by decide +kernel
    have := this _ (lasso_succ 6 9 n (by omega)).1
    simp only [lassoEv] at he
    rw [he] at this
    exact this
  · intro _; exact ⟨2, rfl⟩
  · exact starved_all (fun s => s.crashed = false) (by decide +kernel)
      (by intro w i hi; match i, hi with
          | 0, _ => rfl | 1, _ => rfl | 2, _ => rfl | 3, _ => rfl | 4, _ => rfl | 5, _ => rfl | 6, _ => rfl | 7, _ => rfl | 8, _ => rfl)
  · exact starved_all (fun s => s.endCompleted = false) (by decide +kernel)
      (by intro w i hi; match i, hi with
          | 0, _ => rfl | 1, _ => rfl | 2, _ => rfl | 3, _ => rfl | 4, _ => rfl | 5, _ => rfl | 6, _ => rfl | 7, _ => rfl | 8, _ => rfl)

end Syslog5424
