import Verif.Spec.ReceiveCalls
import Verif.Props.Reconnect
/-! # C102: several goroutines that call `Receive` -/
namespace Syslog5424
open Spec Recv

theorem step_got {t : Transport} {q : Nat} {s s' : State} {e : Event} (hs : step t q s e = some s') :
    if isReceive e = true then ∃ x, s'.got = s.got ++ [x] else s'.got = s.got := by
  unfold step at hs
  split at hs
  · simp at hs
  cases e <;> simp only [isReceive] at hs ⊢ <;> repeat' (split at hs)
  all_goals first
    | (simp at hs; done)
    | (simp only [Option.some.injEq] at hs; subst hs; first | rfl | exact ⟨_, rfl⟩)

theorem step_closed {t : Transport} {q : Nat} {s s' : State} {e : Event} (hs : step t q s e = some s')
    (h : s.pipelineClosed = true ∧ s.pipeline = []) : (s'.pipelineClosed = true ∧ s'.pipeline = []) ∧ isReceive e = false := by
  obtain ⟨h1, h2⟩ := h
  unfold step at hs
  split at hs
  · simp at hs
  cases e <;> simp only [isReceive, h1, h2] at hs ⊢ <;> repeat' (split at hs)
  all_goals first
    | (simp at hs; done)
    | (simp only [Option.some.injEq] at hs; subst hs; exact ⟨⟨by first | exact h1 | rfl, by first | exact h2 | rfl⟩, by trivial⟩)
    | (exfalso; simp_all; done)

/-- What goroutine `g` has taken and not returned yet. -/
def held : RG → List (Nat × Tok.Delivered)
  | .taken (some x) => [x]
  | _ => []

/-- The invariant. -/
structure RInv (f : RState) (a : List (Nat × (Nat × Tok.Delivered))) : Prop where
  all : a.map (·.2) = f.s.got
  own : ∀ g, ofGoroutine g a = messages (returnedTo g f) ++ held (f.at_ g)
  closed : ∀ g, (none ∈ returnedTo g f ∨ f.at_ g = .taken none) → f.s.pipelineClosed = true ∧ f.s.pipeline = []

theorem ofGoroutine_append {α : Type} (g : Nat) (a b : List (Nat × α)) : ofGoroutine g (a ++ b) = ofGoroutine g a ++ ofGoroutine g b := by
  simp [ofGoroutine, List.filter_append]

theorem ofGoroutine_single {α : Type} (g g' : Nat) (x : α) : ofGoroutine g [(g', x)] = if g' = g then [x] else [] := by
  unfold ofGoroutine
  by_cases h : g' = g <;> simp [h]

theorem RInv.shares {f : RState} {a : List (Nat × (Nat × Tok.Delivered))} (h : RInv f a) : Shares f a := by
  refine ⟨h.all, ?_, ?_, ?_⟩
  · intro g; rw [h.own]; exact List.prefix_append _ _
  · intro g; rw [h.own, List.length_append]
    have : (held (f.at_ g)).length ≤ 1 := by unfold held; split <;> simp
    omega
  · intro g hg; rw [h.own, hg]; simp [held]

theorem rinv_init : RInv rinit [] := by
  refine ⟨rfl, fun g => rfl, ?_⟩
  rintro g (h | h)
  · simp [returnedTo, rinit, ofGoroutine] at h
  · simp [rinit] at h

/-- What one event does. -/
theorem rinv_step {t : Transport} {q : Nat} {f f' : RState} {e : REvent} {a : List (Nat × (Nat × Tok.Delivered))} (h : RInv f a)
    (hs : rstep t q f e = some f') : ∃ b, RInv f' (a ++ b) := by
  unfold rstep at hs
  split at hs
  · simp at hs
  cases e with
  | call g o =>
    simp only at hs
    have key : ∀ x, held x = [] → (∀ r, x ≠ .taken r) → f.at_ g = .idle → RInv (f.go g x) (a ++ []) := by
      intro x hx hx' hid
      rw [List.append_nil]
      refine ⟨h.all, ?_, ?_⟩
      · intro g'
        show ofGoroutine g' a = messages (returnedTo g' f) ++ held (if g' = g then x else f.at_ g')
        rw [h.own]
        split
        · next e => subst e; rw [hid, hx]; rfl
        · rfl
      · intro g' h'
        refine h.closed g' (h'.imp id ?_)
        intro h''
        simp only [RState.go] at h''
        split at h''
        · exact absurd h'' (hx' _)
        · exact h''
    split at hs
    · next hid => simp only [Option.some.injEq] at hs; subst hs; exact ⟨[], key _ rfl (fun _ => by simp) hid⟩
    · next hid => simp only [Option.some.injEq] at hs; subst hs; exact ⟨[], key _ rfl (fun _ => by simp) hid⟩
    · simp at hs
  | take g w =>
    simp only at hs
    split at hs
    case h_2 => simp at hs
    next hw =>
    obtain ⟨s', h1, rfl⟩ := Option.map_eq_some_iff.mp hs
    have hg := step_got h1
    have hcl : ∀ g', (none ∈ returnedTo g' f ∨ f.at_ g' = .taken none) → (s'.pipelineClosed = true ∧ s'.pipeline = []) :=
      fun g' hh => (step_closed h1 (h.closed g' hh)).1
    cases hrec : isReceive w.event with
    | true =>
      rw [hrec, if_pos rfl] at hg
      obtain ⟨x, hx⟩ := hg
      refine ⟨[(g, x)], ?_, ?_, ?_⟩
      · simp only [List.map_append, h.all, List.map_cons, List.map_nil, RState.go, hx]
      · intro g'
        rw [ofGoroutine_append, h.own, ofGoroutine_single]
        show _ = messages (returnedTo g' f) ++ held (if g' = g then _ else f.at_ g')
        by_cases hgg : g' = g
        · subst hgg
          rw [if_pos rfl, if_pos rfl, hw, hx, List.drop_left]
          simp [held]
        · rw [if_neg hgg, if_neg (Ne.symm hgg), List.append_nil]
      · rintro g' (h' | h')
        · exact hcl g' (Or.inl h')
        · simp only [RState.go] at h'
          split at h'
          · rw [hx, List.drop_left] at h'; simp at h'
          · exact hcl g' (Or.inr h')
    | false =>
      rw [hrec, if_neg (by simp)] at hg
      have hwc : w = .closed := by cases w <;> simp_all [Way.event, isReceive]
      subst hwc
      refine ⟨[], ?_, ?_, ?_⟩
      · rw [List.append_nil, h.all]; exact hg.symm
      · intro g'
        rw [List.append_nil, h.own]
        show _ = messages (returnedTo g' f) ++ held (if g' = g then _ else f.at_ g')
        by_cases hgg : g' = g
        · subst hgg
          rw [if_pos rfl, hw, hg, List.drop_length]
          simp [held]
        · rw [if_neg hgg]
      · rintro g' h'
        have h2 : s'.pipelineClosed = true ∧ s'.pipeline = [] := by
          unfold step at h1
          split at h1
          · simp at h1
          · simp only [Way.event] at h1
            split at h1
            · next hc =>
              simp only [Option.some.injEq] at h1
              subst h1
              exact ⟨hc.1, List.length_eq_zero_iff.mp hc.2⟩
            · simp at h1
        exact h2
  | tau g =>
    simp only at hs
    split at hs
    case h_2 => simp at hs
    next hw =>
    obtain ⟨s', h1, rfl⟩ := Option.map_eq_some_iff.mp hs
    have hg := step_got h1
    rw [show isReceive .endCall = false from rfl, if_neg (by simp)] at hg
    refine ⟨[], ?_, ?_, ?_⟩
    · rw [List.append_nil, h.all]; exact hg.symm
    · intro g'
      rw [List.append_nil, h.own]
      show _ = messages (returnedTo g' f) ++ held (if g' = g then _ else f.at_ g')
      by_cases hgg : g' = g
      · subst hgg; rw [if_pos rfl, hw]; rfl
      · rw [if_neg hgg]
    · intro g' h'
      refine (step_closed h1 (h.closed g' (h'.imp id ?_))).1
      intro h''
      simp only [RState.go] at h''
      split at h''
      · simp at h''
      · exact h''
  | ret g =>
    simp only at hs
    split at hs
    · next r hw =>
      simp only [Option.some.injEq] at hs
      subst hs
      have hret : ∀ g', returnedTo g' { f.go g .idle with results := f.results ++ [(g, r)] } = returnedTo g' f ++ (if g = g' then [r] else []) := by
        intro g'
        show ofGoroutine g' (f.results ++ [(g, r)]) = _
        rw [ofGoroutine_append, ofGoroutine_single]; rfl
      refine ⟨[], ?_, ?_, ?_⟩
      · rw [List.append_nil]; exact h.all
      · intro g'
        rw [List.append_nil, h.own, hret]
        show _ = messages (returnedTo g' f ++ (if g = g' then [r] else [])) ++ held (if g' = g then .idle else f.at_ g')
        by_cases hgg : g' = g
        · subst hgg
          rw [if_pos rfl, if_pos rfl, hw]
          cases r <;> simp [messages, held]
        · rw [if_neg hgg, if_neg (Ne.symm hgg), List.append_nil]
      · intro g' h'
        rw [hret] at h'
        have : ({ f.go g .idle with results := f.results ++ [(g, r)] } : RState).at_ g' = (if g' = g then .idle else f.at_ g') := rfl
        rw [this] at h'
        by_cases hgg : g' = g
        · subst hgg
          rw [if_pos rfl, if_pos rfl] at h'
          rcases h' with h' | h'
          · rw [List.mem_append] at h'
            rcases h' with h' | h'
            · exact h.closed g' (Or.inl h')
            · simp only [List.mem_singleton] at h'
              exact h.closed g' (Or.inr (by rw [hw, h']))
          · simp at h'
        · rw [if_neg hgg, if_neg (Ne.symm hgg), List.append_nil] at h'
          exact h.closed g' h'
    · next hw =>
      simp only [Option.some.injEq] at hs
      subst hs
      refine ⟨[], ?_, ?_, ?_⟩
      · rw [List.append_nil]; exact h.all
      · intro g'
        rw [List.append_nil, h.own]
        show _ = messages (returnedTo g' f) ++ held (if g' = g then .idle else f.at_ g')
        by_cases hgg : g' = g
        · subst hgg; rw [if_pos rfl, hw]; rfl
        · rw [if_neg hgg]
      · intro g' h'
        refine h.closed g' (h'.imp id ?_)
        intro h''
        simp only [RState.go] at h''
        split at h''
        · simp at h''
        · exact h''
    · simp at hs
  | other e =>
    have key : isReceive e = false → ∀ s', step t q f.s e = some s' → RInv { f with s := s' } (a ++ []) := by
      intro hr s' h1
      have hg := step_got h1
      rw [hr, if_neg (by simp)] at hg
      rw [List.append_nil]
      exact ⟨by rw [h.all]; exact hg.symm, h.own, fun g' h' => (step_closed h1 (h.closed g' h')).1⟩
    cases e <;> simp only at hs <;> first | (simp at hs; done) | (obtain ⟨s', h1, rfl⟩ := Option.map_eq_some_iff.mp hs; exact ⟨[], key rfl s' h1⟩)

theorem rinv_run {t : Transport} {q : Nat} {h : List REvent} {f f' : RState} {a : List (Nat × (Nat × Tok.Delivered))} (hi : RInv f a)
    (hr : rrun t q f h = some f') : ∃ b, RInv f' (a ++ b) := by
  induction h generalizing f a with
  | nil =>
    simp only [rrun, Option.some.injEq] at hr
    subst hr
    exact ⟨[], by rwa [List.append_nil]⟩
  | cons e r ih =>
    obtain ⟨f1, h1, h2⟩ := Option.bind_eq_some_iff.mp hr
    obtain ⟨b, hb⟩ := rinv_step hi h1
    obtain ⟨c, hc⟩ := ih hb h2
    exact ⟨b ++ c, by rwa [← List.append_assoc]⟩

/-- **C102.** Several goroutines call `Receive`: every message that leaves the receiver is given to exactly one call; the calls
of a goroutine return what it was given, in this order; and a call that begins later than another one has returned is given
a later message. (`f` is any moment, `f'` any later one: the goroutines that are in no call at `f` have been given what they
have in `a`, and what calls that begin later return is in `b`.) -/
theorem C102_shared (t : Transport) (lenQueue : Nat) (h h' : List REvent) (f f' : RState) (h1 : RHistory t lenQueue h f)
    (h2 : rrun t lenQueue f h' = some f') : ∃ a b, Shares f a ∧ Shares f' (a ++ b) := by
  obtain ⟨a, ha⟩ := rinv_run rinv_init h1
  obtain ⟨b, hb⟩ := rinv_run ha h2
  exact ⟨[] ++ a, b, ha.shares, hb.shares⟩

/-- One event, with the calls taking place at once. -/
theorem rstep_atOnce {t : Transport} {q : Nat} {f f' : RState} {e : REvent} (hs : rstep t q f e = some f') :
    match atOnce e with
    | some x => step t q f.s x = some f'.s
    | none => f'.s = f.s := by
  unfold rstep at hs
  split at hs
  · simp at hs
  cases e with
  | call g o =>
    simp only at hs
    split at hs <;> first | (simp at hs; done) | (simp only [Option.some.injEq] at hs; subst hs; rfl)
  | take g w =>
    simp only at hs
    split at hs
    · obtain ⟨s', h1, rfl⟩ := Option.map_eq_some_iff.mp hs
      exact h1
    · simp at hs
  | tau g =>
    simp only at hs
    split at hs
    · obtain ⟨s', h1, rfl⟩ := Option.map_eq_some_iff.mp hs
      exact h1
    · simp at hs
  | ret g =>
    simp only at hs
    split at hs <;> first | (simp at hs; done) | (simp only [Option.some.injEq] at hs; subst hs; rfl)
  | other e =>
    cases e <;> simp only at hs <;> first | (simp at hs; done) | (obtain ⟨s', h1, rfl⟩ := Option.map_eq_some_iff.mp hs; exact h1)

/-- **C102.** Calls behave as if each of them took place at once: the receiver is in the state that the same events lead to
when `Receive` and `End` are single events. All that is proved of the receiver holds. -/
theorem C102_atomic (t : Transport) (lenQueue : Nat) (h : List REvent) (f : RState) (h1 : RHistory t lenQueue h f) :
    run t lenQueue init (h.filterMap atOnce) = some f.s := by
  have gen : ∀ (h : List REvent) (f0 : RState), rrun t lenQueue f0 h = some f → run t lenQueue f0.s (h.filterMap atOnce) = some f.s := by
    intro h
    induction h with
    | nil =>
      intro f0 h1
      simp only [rrun, Option.some.injEq] at h1
      subst h1; rfl
    | cons e r ih =>
      intro f0 h1
      obtain ⟨f1, h2, h3⟩ := Option.bind_eq_some_iff.mp h1
      have := rstep_atOnce h2
      rw [List.filterMap_cons]
      cases he : atOnce e with
      | none => rw [he] at this; rw [← this]; exact ih f1 h3
      | some x =>
        rw [he] at this
        simp only [run]
        rw [this]; exact ih f1 h3
  exact gen h rinit h1

theorem rrun_append {t : Transport} {q : Nat} {f : RState} {a b : List REvent} : rrun t q f (a ++ b) = (rrun t q f a).bind fun f' => rrun t q f' b := by
  induction a generalizing f with
  | nil => rfl
  | cons e r ih =>
    simp only [List.cons_append, rrun]
    cases rstep t q f e with
    | none => rfl
    | some f1 => exact ih

/-- One event, made of the events of one goroutine that calls. -/
theorem complete_rstep {t : Transport} {q : Nat} {f : RState} {e : Event} {s : State} (hi : ∀ g, f.at_ g = .idle) (h : step t q f.s e = some s) :
    ∃ l f', rrun t q f l = some f' ∧ f'.s = s ∧ l.filterMap atOnce = [e] ∧ (s.crashed = false → ∀ g, f'.at_ g = .idle) := by
  have hc : f.s.crashed = false := by
    cases hc : f.s.crashed with
    | false => rfl
    | true => simp [step, hc] at h
  have hget : ∀ (w : Way), step t q f.s w.event = some s → (s.crashed = false) →
      ∃ l f', rrun t q f l = some f' ∧ f'.s = s ∧ l.filterMap atOnce = [w.event] ∧ (s.crashed = false → ∀ g, f'.at_ g = .idle) := by
    intro w hw hs
    refine ⟨[.call 0 .receive, .take 0 w, .ret 0], { (({ f.go 0 .waiting with s := s }.go 0
      (.taken (s.got.drop f.s.got.length).head?)).go 0 .idle) with results := f.results ++ [(0, (s.got.drop f.s.got.length).head?)] }, ?_, rfl, ?_, ?_⟩
    · simp [rrun, rstep, hc, hi, RState.go, hw, hs]
    · cases w <;> rfl
    · intro _ g
      by_cases hg : g = 0 <;> simp [RState.go, hg, hi]
  have hother : (rstep t q f (.other e) = some { f with s := s }) → ∃ l f', rrun t q f l = some f' ∧ f'.s = s ∧ l.filterMap atOnce = [e] ∧
      (s.crashed = false → ∀ g, f'.at_ g = .idle) := by
    intro h1
    exact ⟨[.other e], { f with s := s }, by simp only [rrun, h1]; rfl, rfl, rfl, fun _ g => hi g⟩
  have hs : e = .recv ∨ e = .recvClosed ∨ (∃ i, e = .handoff i) → s.crashed = false := by
    rintro (rfl | rfl | ⟨i, rfl⟩) <;> simp only [step, hc] at h <;> (repeat' split at h) <;>
      first | (simp at h; done) | (simp at h; subst h; simp [hc]; done) | (simp only [Option.some.injEq] at h; subst h; rfl; done) | (simp only [Option.some.injEq] at h; subst h; exact hc)
  cases e with
  | recv => exact hget .queue h (hs (Or.inl rfl))
  | recvClosed => exact hget .closed h (hs (Or.inr (Or.inl rfl)))
  | handoff i => exact hget (.direct i) h (hs (Or.inr (Or.inr ⟨i, rfl⟩)))
  | endCall =>
    by_cases hcr : s.crashed = true
    · refine ⟨[.call 0 .endCall, .tau 0], { f.go 0 .close with s := s }.go 0 .ended, ?_, rfl, rfl, ?_⟩
      · simp [rrun, rstep, hc, hi, RState.go, h]
      · rw [hcr]; simp
    · refine ⟨[.call 0 .endCall, .tau 0, .ret 0], ({ f.go 0 .close with s := s }.go 0 .ended).go 0 .idle, ?_, rfl, rfl, ?_⟩
      · simp [rrun, rstep, hc, hi, RState.go, h, hcr]
      · intro _ g
        by_cases hg : g = 0 <;> simp [RState.go, hg, hi]
  | _ => exact hother (by simp [rstep, hc, h])

/-- **C102.** Conversely every history in which `Receive` and `End` take place at once comes from one in which one goroutine calls
them, with the same other events and the same state; all its calls have returned, unless the last one crashed the program. -/
theorem C102_complete (t : Transport) (lenQueue : Nat) (es : List Event) (s : State) (h : run t lenQueue init es = some s) :
    ∃ l f, RHistory t lenQueue l f ∧ f.s = s ∧ l.filterMap atOnce = es ∧ (s.crashed = false → ∀ g, f.at_ g = .idle) := by
  have key : ∀ (es : List Event) (f0 : RState), (f0.s.crashed = false → ∀ g, f0.at_ g = .idle) → run t lenQueue f0.s es = some s →
      ∃ l f, rrun t lenQueue f0 l = some f ∧ f.s = s ∧ l.filterMap atOnce = es ∧ (s.crashed = false → ∀ g, f.at_ g = .idle) := by
    intro es
    induction es with
    | nil =>
      intro f0 h0 h1
      simp only [run, Option.some.injEq] at h1
      subst h1
      exact ⟨[], f0, rfl, rfl, rfl, h0⟩
    | cons e r ih =>
      intro f0 h0 h1
      simp only [run] at h1
      cases h2 : step t lenQueue f0.s e with
      | none => rw [h2] at h1; cases h1
      | some s1 =>
        rw [h2] at h1
        have hc : f0.s.crashed = false := by
          cases hc : f0.s.crashed with
          | false => rfl
          | true => simp [step, hc] at h2
        obtain ⟨l1, f1, g1, rfl, g3, g4⟩ := complete_rstep (h0 hc) h2
        obtain ⟨l2, f2, k1, k2, k3, k4⟩ := ih f1 g4 h1
        refine ⟨l1 ++ l2, f2, ?_, k2, ?_, k4⟩
        · rw [rrun_append, g1]; exact k1
        · rw [List.filterMap_append, g3, k3]; rfl
  exact key es rinit (fun _ _ => rfl) h

theorem ofConn_sublist {i : Nat} {a b : List (Nat × Tok.Delivered)} (h : a.Sublist b) : (ofConn i a).Sublist (ofConn i b) := by
  unfold ofConn; exact h.filterMap _

/-- **C102.** What the calls of one goroutine return from connection `i` are messages of this connection in the order in which
they were decoded there, none twice. -/
theorem C102_connection (t : Transport) (lenQueue : Nat) (h : List REvent) (f : RState) (h1 : RHistory t lenQueue h f)
    (hc : f.s.crashed = false) (g i : Nat) (c : Conn) (hi : f.s.conns[i]? = some c) :
    ∃ b tok, Tok.Run t Tok.init (readsOf i (h.filterMap atOnce)) (.ret (b, tok)) ∧
      (ofConn i (messages (returnedTo g f))).Sublist tok.out := by
  obtain ⟨b, tok, h2, h3⟩ := C44_order t lenQueue _ _ (C102_atomic t lenQueue h f h1) hc i c hi
  obtain ⟨a, _, ha, _⟩ := C102_shared t lenQueue h [] f f h1 rfl
  refine ⟨b, tok, h2, ?_⟩
  rw [← h3, List.append_assoc]
  refine List.Sublist.trans ?_ (List.sublist_append_left _ _)
  refine ofConn_sublist ((ha.returned g).sublist.trans ?_)
  rw [← ha.all]
  exact List.filter_sublist.map _

/-- **C102.** When no call is going on, the calls have returned, all together, exactly the messages that left the receiver, each
once. -/
theorem C102_all (t : Transport) (lenQueue : Nat) (h : List REvent) (f : RState) (h1 : RHistory t lenQueue h f)
    (hidle : ∀ g, f.at_ g = .idle) : (messages (f.results.map (·.2))).Perm f.s.got := by
  obtain ⟨a, _, ha, -⟩ := C102_shared t lenQueue h [] f f h1 rfl
  rw [← ha.all]
  have hown : ∀ g, ofGoroutine g a = messages (ofGoroutine g f.results) := fun g => (ha.idle g (hidle g)).symm
  generalize f.results = R at hown ⊢
  clear ha h1
  -- two lists with the same projections have the same elements
  induction a generalizing R with
  | nil =>
    have : messages (R.map (·.2)) = [] := by
      cases hm : messages (R.map (·.2)) with
      | nil => rfl
      | cons x l =>
        exfalso
        have hx : x ∈ messages (R.map (·.2)) := by rw [hm]; exact List.mem_cons_self
        simp only [messages, List.mem_filterMap, List.mem_map, id] at hx
        obtain ⟨y, ⟨⟨g, r⟩, h3, h4⟩, h5⟩ := hx
        have h6 : x ∈ messages (ofGoroutine g R) := by
          simp only [messages, List.mem_filterMap, id, ofGoroutine, List.mem_map, List.mem_filter]
          exact ⟨y, ⟨(g, r), ⟨h3, by simp⟩, h4⟩, h5⟩
        rw [← hown g] at h6
        simp [ofGoroutine] at h6
    rw [this]; exact List.Perm.nil
  | cons p a ih =>
    obtain ⟨g, x⟩ := p
    -- the first message of `g` in `R`
    have hg := hown g
    rw [show ofGoroutine g ((g, x) :: a) = x :: ofGoroutine g a by simp [ofGoroutine]] at hg
    have split : ∃ R1 R2, R = R1 ++ (g, some x) :: R2 ∧ messages (ofGoroutine g R1) = [] := by
      clear ih hown
      induction R with
      | nil => simp [ofGoroutine, messages] at hg
      | cons y R ihR =>
        obtain ⟨g', r⟩ := y
        by_cases hgg : g' = g
        · subst hgg
          cases r with
          | none =>
            rw [show messages (ofGoroutine g' ((g', none) :: R)) = messages (ofGoroutine g' R) by simp [ofGoroutine, messages]] at hg
            obtain ⟨R1, R2, e, e'⟩ := ihR hg
            refine ⟨(g', none) :: R1, R2, by rw [e]; rfl, ?_⟩
            rw [← e']; simp [ofGoroutine, messages]
          | some z =>
            rw [show messages (ofGoroutine g' ((g', some z) :: R)) = z :: messages (ofGoroutine g' R) by simp [ofGoroutine, messages]] at hg
            have : x = z := (List.cons.inj hg).1
            subst this
            exact ⟨[], R, rfl, rfl⟩
        · rw [show ofGoroutine g ((g', r) :: R) = ofGoroutine g R by simp [ofGoroutine, hgg]] at hg
          obtain ⟨R1, R2, e, e'⟩ := ihR hg
          refine ⟨(g', r) :: R1, R2, by rw [e]; rfl, ?_⟩
          rw [← e']; simp [ofGoroutine, hgg]
    obtain ⟨R1, R2, rfl, hR1⟩ := split
    have := ih (R1 ++ R2) (by
      intro g'
      have hg' := hown g'
      rw [ofGoroutine_append] at hg' ⊢
      by_cases hgg : g' = g
      · subst hgg
        rw [show ofGoroutine g' ((g', x) :: a) = x :: ofGoroutine g' a by simp [ofGoroutine],
          show ofGoroutine g' ((g', some x) :: R2) = some x :: ofGoroutine g' R2 by simp [ofGoroutine]] at hg'
        rw [show ∀ l m, messages (l ++ m) = messages l ++ messages m from fun l m => List.filterMap_append, hR1] at hg' ⊢
        rw [List.nil_append, show messages (some x :: ofGoroutine g' R2) = x :: messages (ofGoroutine g' R2) by simp [messages]] at hg'
        exact (List.cons.inj hg').2
      · rw [show ofGoroutine g' ((g, x) :: a) = ofGoroutine g' a by simp [ofGoroutine, Ne.symm hgg],
          show ofGoroutine g' ((g, some x) :: R2) = ofGoroutine g' R2 by simp [ofGoroutine, Ne.symm hgg]] at hg'
        exact hg')
    refine List.Perm.trans ?_ (List.Perm.cons x this)
    rw [List.map_append, List.map_append, List.map_cons, show ∀ l m, messages (l ++ m) = messages l ++ messages m from fun l m => List.filterMap_append,
      show ∀ l m, messages (l ++ m) = messages l ++ messages m from fun l m => List.filterMap_append,
      show messages (some x :: R2.map (·.2)) = x :: messages (R2.map (·.2)) by simp [messages]]
    exact List.perm_middle

/-- The results recorded only grow. -/
theorem results_grow {t : Transport} {q : Nat} {h : List REvent} {f f' : RState} (hr : rrun t q f h = some f') : f.results <+: f'.results := by
  induction h generalizing f with
  | nil =>
    simp only [rrun, Option.some.injEq] at hr
    subst hr; exact List.prefix_refl _
  | cons e r ih =>
    obtain ⟨f1, h1, h2⟩ := Option.bind_eq_some_iff.mp hr
    refine List.IsPrefix.trans ?_ (ih h2)
    unfold rstep at h1
    split at h1
    · simp at h1
    cases e with
    | call g o => simp only at h1; split at h1 <;> first | (simp at h1; done) | (simp only [Option.some.injEq] at h1; subst h1; exact List.prefix_refl _)
    | take g w =>
      simp only at h1
      split at h1
      · obtain ⟨s', _, rfl⟩ := Option.map_eq_some_iff.mp h1; exact List.prefix_refl _
      · simp at h1
    | tau g =>
      simp only at h1
      split at h1
      · obtain ⟨s', _, rfl⟩ := Option.map_eq_some_iff.mp h1; exact List.prefix_refl _
      · simp at h1
    | ret g =>
      simp only at h1
      split at h1
      · simp only [Option.some.injEq] at h1; subst h1; exact List.prefix_append _ _
      · simp only [Option.some.injEq] at h1; subst h1; exact List.prefix_refl _
      · simp at h1
    | other e =>
      cases e <;> simp only at h1 <;> first | (simp at h1; done) | (obtain ⟨s', _, rfl⟩ := Option.map_eq_some_iff.mp h1; exact List.prefix_refl _)

/-- **C102.** Once a call of `Receive` has returned that the receiver has ended, so do all calls that begin later, of every
goroutine. -/
theorem C102_ended (t : Transport) (lenQueue : Nat) (h h' : List REvent) (f f' : RState) (h1 : RHistory t lenQueue h f)
    (h2 : rrun t lenQueue f h' = some f') (g0 : Nat) (hend : none ∈ returnedTo g0 f) (g : Nat) (hg : f.at_ g = .idle) :
    ∃ k, returnedTo g f' = returnedTo g f ++ List.replicate k none := by
  obtain ⟨a, ha⟩ := rinv_run rinv_init h1
  have hcl := ha.closed g0 (Or.inl hend)
  have hgot : f'.s.got = f.s.got := by
    have gen : ∀ (h' : List REvent) (f0 : RState), f0.s.pipelineClosed = true ∧ f0.s.pipeline = [] → rrun t lenQueue f0 h' = some f' →
        f'.s.got = f0.s.got := by
      intro h'
      induction h' with
      | nil =>
        intro f0 _ h3
        simp only [rrun, Option.some.injEq] at h3
        subst h3; rfl
      | cons e r ih =>
        intro f0 hc h3
        obtain ⟨f1, h4, h5⟩ := Option.bind_eq_some_iff.mp h3
        have h6 := rstep_atOnce h4
        cases he : atOnce e with
        | none => rw [he] at h6; simp only at h6; rw [ih f1 (by rw [h6]; exact hc) h5, h6]
        | some x =>
          rw [he] at h6
          obtain ⟨h7, h8⟩ := step_closed h6 hc
          have h9 := step_got h6
          rw [h8, if_neg (by simp)] at h9
          rw [ih f1 h7 h5, h9]
    exact gen h' f hcl h2
  obtain ⟨b, hb⟩ := rinv_run ha h2
  have hbn : b = [] := by
    have := hb.all
    rw [List.map_append, ha.all, hgot] at this
    have := List.append_cancel_left (this.trans (List.append_nil _).symm)
    exact List.map_eq_nil_iff.mp this
  subst hbn
  rw [List.append_nil] at hb
  obtain ⟨r, hr⟩ := results_grow h2
  have hret : returnedTo g f' = returnedTo g f ++ ofGoroutine g r := by
    unfold returnedTo; rw [← hr, ofGoroutine_append]
  have e1 := ha.own g
  have e2 := (hb.own g)
  rw [e1, hg, show held .idle = [] from rfl, List.append_nil, hret,
    show ∀ l m, messages (l ++ m) = messages l ++ messages m from fun l m => List.filterMap_append, List.append_assoc] at e2
  have e3 : messages (ofGoroutine g r) = [] := by
    have := List.append_cancel_left ((List.append_nil _).trans e2)
    exact (List.append_eq_nil_iff.mp this.symm).1
  refine ⟨(ofGoroutine g r).length, ?_⟩
  rw [hret]
  congr 1
  rw [List.eq_replicate_iff]
  refine ⟨rfl, ?_⟩
  intro x hx
  cases x with
  | none => rfl
  | some y =>
    have : y ∈ messages (ofGoroutine g r) := List.mem_filterMap.mpr ⟨some y, hx, rfl⟩
    rw [e3] at this; simp at this

/-! ## endless executions -/

theorem rexec_atOnce {t : Transport} {q : Nat} {ev : Nat → Option REvent} {st : Nat → RState} (hx : RExec t q ev st) :
    ReceiverExec t q (fun n => (ev n).bind atOnce) (fun n => (st n).s) := by
  refine ⟨by rw [hx.start]; rfl, ?_, ?_⟩
  · intro n e he
    obtain ⟨x, h1, h2⟩ := Option.bind_eq_some_iff.mp he
    have := rstep_atOnce (hx.event n x h1)
    rw [h2] at this
    exact this
  · intro n he
    cases h1 : ev n with
    | none => rw [hx.nothing n h1]
    | some x =>
      rw [h1] at he
      have := rstep_atOnce (hx.event n x h1)
      rw [show atOnce x = none from he] at this
      exact this

/-- Where a goroutine is changes only by its own events. -/
theorem at_other {t : Transport} {q : Nat} {f f' : RState} {e : REvent} (hs : rstep t q f e = some f') (g : Nat)
    (h1 : isReceiverOf g e = false) (h2 : e ≠ .call g .endCall) (h3 : f.at_ g ≠ .close) : f'.at_ g = f.at_ g := by
  unfold rstep at hs
  split at hs
  · simp at hs
  cases e with
  | call g' o =>
    have hg : g ≠ g' := by
      rintro rfl
      cases o
      · simp [isReceiverOf] at h1
      · exact h2 rfl
    simp only at hs
    split at hs <;> first | (simp at hs; done) | (simp only [Option.some.injEq] at hs; subst hs; simp only [RState.go]; rw [if_neg hg])
  | take g' w =>
    have hg : g ≠ g' := by rintro rfl; simp [isReceiverOf] at h1
    simp only at hs
    split at hs
    · obtain ⟨s', _, rfl⟩ := Option.map_eq_some_iff.mp hs; simp only [RState.go]; rw [if_neg hg]
    · simp at hs
  | tau g' =>
    simp only at hs
    split at hs
    · next hc =>
      have hg : g ≠ g' := by rintro rfl; exact h3 hc
      obtain ⟨s', _, rfl⟩ := Option.map_eq_some_iff.mp hs; simp only [RState.go]; rw [if_neg hg]
    · simp at hs
  | ret g' =>
    have hg : g ≠ g' := by rintro rfl; simp [isReceiverOf] at h1
    simp only at hs
    split at hs
    · simp only [Option.some.injEq] at hs; subst hs; simp only [RState.go]; rw [if_neg hg]
    · simp only [Option.some.injEq] at hs; subst hs; simp only [RState.go]; rw [if_neg hg]
    · simp at hs
  | other e =>
    cases e <;> simp only at hs <;> first | (simp at hs; done) | (obtain ⟨s', _, rfl⟩ := Option.map_eq_some_iff.mp hs; rfl)

/-- A goroutine that calls `Receive` and not `End` is never inside `End`. -/
theorem worker_never_end {t : Transport} {q : Nat} {ev : Nat → Option REvent} {st : Nat → RState} (hx : RExec t q ev st) {g : Nat}
    (hno : ∀ n, ev n ≠ some (.call g .endCall)) (n : Nat) : (st n).at_ g ≠ .close ∧ (st n).at_ g ≠ .ended := by
  induction n with
  | zero => rw [hx.start]; simp [rinit]
  | succ n ih =>
    cases he : ev n with
    | none => rw [hx.nothing n he]; exact ih
    | some e =>
      have hs := hx.event n e he
      cases hr : isReceiverOf g e with
      | false => rw [at_other hs g hr (fun h => hno n (h ▸ he)) ih.1]; exact ih
      | true =>
        generalize st (n + 1) = f' at hs ⊢
        unfold rstep at hs
        split at hs
        · simp at hs
        cases e with
        | call g' o =>
          cases o with
          | endCall => simp [isReceiverOf] at hr
          | receive =>
            have : g' = g := by simpa [isReceiverOf] using hr
            subst this
            simp only at hs
            split at hs
            · simp only [Option.some.injEq] at hs; subst hs; simp [RState.go]
            · next h => simp at h
            · simp at hs
        | take g' w =>
          have : g' = g := by simpa [isReceiverOf] using hr
          subst this
          simp only at hs
          split at hs
          · obtain ⟨s', _, rfl⟩ := Option.map_eq_some_iff.mp hs; simp [RState.go]
          · simp at hs
        | ret g' =>
          have : g' = g := by simpa [isReceiverOf] using hr
          subst this
          simp only at hs
          split at hs
          · simp only [Option.some.injEq] at hs; subst hs; simp [RState.go]
          · simp only [Option.some.injEq] at hs; subst hs; simp [RState.go]
          · simp at hs
        | tau g' => simp [isReceiverOf] at hr
        | other e => simp [isReceiverOf] at hr

/-- The next event of goroutine `g`, if there is one; until then it is where it is. -/
theorem next_own {t : Transport} {q : Nat} {ev : Nat → Option REvent} {st : Nat → RState} (hx : RExec t q ev st) {g : Nat}
    (hw : Worker t q g ev st) (n : Nat) :
    ∃ m, n ≤ m ∧ (st m).at_ g = (st n).at_ g ∧ ((∃ e, ev m = some e ∧ isReceiverOf g e = true) ∨ ∀ e, isReceiverOf g e = true → rstep t q (st m) e = none) := by
  obtain ⟨m, hm, h⟩ := hw.fair n
  induction hd : m - n generalizing n with
  | zero =>
    have : m = n := by omega
    subst this
    exact ⟨m, Nat.le_refl _, rfl, h⟩
  | succ d ih =>
    have go : (st (n + 1)).at_ g = (st n).at_ g → ∃ m, n ≤ m ∧ (st m).at_ g = (st n).at_ g ∧
        ((∃ e, ev m = some e ∧ isReceiverOf g e = true) ∨ ∀ e, isReceiverOf g e = true → rstep t q (st m) e = none) := by
      intro heq
      obtain ⟨m', h1, h2, h3⟩ := ih (n + 1) (by omega) (by omega)
      exact ⟨m', by omega, by rw [h2, heq], h3⟩
    cases he : ev n with
    | none => exact go (by rw [hx.nothing n he])
    | some e =>
      cases hr : isReceiverOf g e with
      | true => exact ⟨n, Nat.le_refl _, rfl, Or.inl ⟨e, he, hr⟩⟩
      | false => exact go (at_other (hx.event n e he) g hr (fun h => hw.noEnd n (h ▸ he)) (worker_never_end hx hw.noEnd n).1)

/-- One goroutine that calls `Receive` again and again is enough: the receiver is emptied, whatever the other goroutines do. -/
theorem C102_one_worker (t : Transport) (lenQueue : Nat) (ev : Nat → Option REvent) (st : Nat → RState) (hx : RExec t lenQueue ev st)
    (hc : ∀ n, (st n).s.crashed = false) (g : Nat) (hw : Worker t lenQueue g ev st) :
    Consumed t lenQueue (fun n => (ev n).bind atOnce) (fun n => (st n).s) := by
  -- when `g` waits in `Receive`
  have waiting : ∀ n, (st n).at_ g = .waiting → ∃ m, n ≤ m ∧ ((∃ e, (ev m).bind atOnce = some e ∧ isReceive e = true) ∨
      ∀ e, isReceive e = true → step t lenQueue (st m).s e = none) := by
    intro n hn
    obtain ⟨m, hm, h1, h2⟩ := next_own hx hw n
    rw [hn] at h1
    refine ⟨m, hm, ?_⟩
    rcases h2 with ⟨e, he, hr⟩ | h2
    · have hs := hx.event m e he
      have : ∃ w, e = .take g w := by
        unfold rstep at hs
        split at hs
        · simp at hs
        cases e with
        | call g' o =>
          cases o with
          | endCall => simp [isReceiverOf] at hr
          | receive =>
            have : g' = g := by simpa [isReceiverOf] using hr
            subst this
            simp [h1] at hs
        | take g' w =>
          have : g' = g := by simpa [isReceiverOf] using hr
          exact ⟨w, by rw [this]⟩
        | ret g' =>
          have : g' = g := by simpa [isReceiverOf] using hr
          subst this
          simp [h1] at hs
        | tau g' => simp [isReceiverOf] at hr
        | other e => simp [isReceiverOf] at hr
      obtain ⟨w, rfl⟩ := this
      have hst := rstep_atOnce hs
      simp only [atOnce] at hst
      cases hrec : isReceive w.event with
      | true => exact Or.inl ⟨w.event, by rw [he]; rfl, hrec⟩
      | false =>
        right
        have hwc : w = .closed := by cases w <;> simp_all [Way.event, isReceive]
        subst hwc
        have hcl : (st m).s.pipelineClosed = true ∧ (st m).s.pipeline = [] := by
          unfold step at hst
          split at hst
          · simp at hst
          · simp only [Way.event] at hst
            split at hst
            · next hc => exact ⟨hc.1, List.length_eq_zero_iff.mp hc.2⟩
            · simp at hst
        intro e he
        cases hse : step t lenQueue (st m).s e with
        | none => rfl
        | some s' => rw [(step_closed hse hcl).2] at he; simp at he
    · right
      intro e he
      have take : ∀ w : Way, step t lenQueue (st m).s w.event = none := by
        intro w
        have := h2 (.take g w) (by simp [isReceiverOf])
        unfold rstep at this
        rw [hc m, if_neg (by simp)] at this
        simp only [h1] at this
        exact Option.map_eq_none_iff.mp this
      cases e <;> simp only [isReceive] at he <;> first | exact take .queue | exact take (.direct _) | cases he
  -- when `g` is between two calls
  have idle : ∀ n, (st n).at_ g = .idle → ∃ m, n ≤ m ∧ (st m).at_ g = .waiting := by
    intro n hn
    obtain ⟨m, hm, h1, h2⟩ := next_own hx hw n
    rw [hn] at h1
    rcases h2 with ⟨e, he, hr⟩ | h2
    · refine ⟨m + 1, by omega, ?_⟩
      have hs := hx.event m e he
      generalize st (m + 1) = f' at hs ⊢
      unfold rstep at hs
      rw [hc m, if_neg (by simp)] at hs
      cases e with
      | call g' o =>
        cases o with
        | endCall => simp [isReceiverOf] at hr
        | receive =>
          have : g' = g := by simpa [isReceiverOf] using hr
          subst this
          simp only [h1, Option.some.injEq] at hs
          subst hs
          simp [RState.go]
      | take g' w =>
        have : g' = g := by simpa [isReceiverOf] using hr
        subst this
        simp [h1] at hs
      | ret g' =>
        have : g' = g := by simpa [isReceiverOf] using hr
        subst this
        simp [h1] at hs
      | tau g' => simp [isReceiverOf] at hr
      | other e => simp [isReceiverOf] at hr
    · have := h2 (.call g .receive) (by simp [isReceiverOf])
      simp [rstep, hc m, h1] at this
  intro n
  cases hn : (st n).at_ g with
  | waiting => exact waiting n hn
  | idle =>
    obtain ⟨m, hm, h⟩ := idle n hn
    obtain ⟨k, hk, h'⟩ := waiting m h
    exact ⟨k, by omega, h'⟩
  | close => exact absurd hn (worker_never_end hx hw.noEnd n).1
  | ended => exact absurd hn (worker_never_end hx hw.noEnd n).2
  | taken r =>
    obtain ⟨m, hm, h1, h2⟩ := next_own hx hw n
    rw [hn] at h1
    have : ∃ k, m ≤ k ∧ (st k).at_ g = .idle := by
      rcases h2 with ⟨e, he, hr⟩ | h2
      · refine ⟨m + 1, by omega, ?_⟩
        have hs := hx.event m e he
        generalize st (m + 1) = f' at hs ⊢
        unfold rstep at hs
        rw [hc m, if_neg (by simp)] at hs
        cases e with
        | call g' o =>
          cases o with
          | endCall => simp [isReceiverOf] at hr
          | receive =>
            have : g' = g := by simpa [isReceiverOf] using hr
            subst this
            simp [h1] at hs
        | take g' w =>
          have : g' = g := by simpa [isReceiverOf] using hr
          subst this
          simp [h1] at hs
        | ret g' =>
          have : g' = g := by simpa [isReceiverOf] using hr
          subst this
          simp only [h1, Option.some.injEq] at hs
          subst hs
          simp [RState.go]
        | tau g' => simp [isReceiverOf] at hr
        | other e => simp [isReceiverOf] at hr
      · have := h2 (.ret g) (by simp [isReceiverOf])
        simp [rstep, hc m, h1] at this
    obtain ⟨k, hk, h3⟩ := this
    obtain ⟨m', hm', h4⟩ := idle k h3
    obtain ⟨k', hk', h5⟩ := waiting m' h4
    exact ⟨k', by omega, h5⟩

theorem history_rpast {t : Transport} {q : Nat} {ev : Nat → Option REvent} {st : Nat → RState} (hx : RExec t q ev st) (n : Nat) :
    RHistory t q (past ev n) (st n) := by
  have app : ∀ (h : List REvent) (f f' : RState) (h' : List REvent), rrun t q f h = some f' → rrun t q f (h ++ h') = rrun t q f' h' := by
    intro h
    induction h with
    | nil => intro f f' h' e; simp only [rrun, Option.some.injEq] at e; subst e; rfl
    | cons x r ih =>
      intro f f' h' e
      obtain ⟨f1, h1, h2⟩ := Option.bind_eq_some_iff.mp e
      simp only [List.cons_append, rrun]
      rw [h1]; exact ih f1 f' h' h2
  unfold RHistory
  induction n with
  | zero => rw [hx.start]; rfl
  | succ n ih =>
    rw [past_succ, app _ _ _ _ ih]
    cases he : ev n with
    | none => rw [hx.nothing n he]; rfl
    | some e => simp only [Option.toList, rrun]; rw [hx.event n e he]; rfl

/-- A message that a call was given is returned by this call. -/
theorem taken_returned {t : Transport} {q : Nat} {ev : Nat → Option REvent} {st : Nat → RState} (hx : RExec t q ev st)
    (hc : ∀ n, (st n).s.crashed = false) {g : Nat} (hw : Returns t q g ev st) {n : Nat} {a : List (Nat × (Nat × Tok.Delivered))}
    (ha : RInv (st n) a) : ∃ m, n ≤ m ∧ ofGoroutine g a <+: messages (returnedTo g (st m)) := by
  have grow : ∀ {n m : Nat}, n ≤ m → messages (returnedTo g (st n)) <+: messages (returnedTo g (st m)) := by
    intro n m h
    induction h with
    | refl => exact List.prefix_refl _
    | @step m _ ih =>
      refine ih.trans ?_
      have hg : (st m).results <+: (st (m + 1)).results := by
        cases he : ev m with
        | none => rw [hx.nothing m he]; exact List.prefix_refl _
        | some e => exact results_grow (h := [e]) (by simp only [rrun]; rw [hx.event m e he]; rfl)
      obtain ⟨r, hr⟩ := hg
      unfold returnedTo
      rw [← hr, ofGoroutine_append]
      unfold messages
      rw [List.filterMap_append]
      exact List.prefix_append _ _
  cases hh : (st n).at_ g with
  | taken r =>
    cases r with
    | none => exact ⟨n, Nat.le_refl _, by rw [ha.own, hh]; simp [held]⟩
    | some x =>
      -- until its return
      obtain ⟨m, hm, h⟩ := hw n
      have key : ∀ d n, m = n + d → (st n).at_ g = .taken (some x) → ∃ k, n ≤ k ∧ messages (returnedTo g (st n)) ++ [x] <+: messages (returnedTo g (st k)) := by
        intro d
        induction d with
        | zero =>
          intro n e hat
          have : m = n := by omega
          subst this
          rcases h with ⟨e, he, hr⟩ | h
          · refine ⟨m + 1, by omega, ?_⟩
            cases e <;> simp only [reduceCtorEq] at hr
            rename_i g'
            have hgg : g' = g := by simpa using hr
            subst hgg
            have hs := hx.event m _ he
            simp only [rstep, hc m, hat, Bool.false_eq_true, if_false, Option.some.injEq] at hs
            rw [← hs]
            show _ <+: messages (ofGoroutine g' ((st m).results ++ [(g', some x)]))
            rw [ofGoroutine_append, ofGoroutine_single, if_pos rfl]
            simp [messages, returnedTo]
          · have := h (.ret g) (by simp)
            simp [rstep, hc m, hat] at this
        | succ d ih =>
          intro n e hat
          have go : (st (n + 1)).at_ g = .taken (some x) → ∃ k, n ≤ k ∧ messages (returnedTo g (st n)) ++ [x] <+: messages (returnedTo g (st k)) := by
            intro h'
            obtain ⟨k, hk, h''⟩ := ih (n + 1) (by omega) h'
            refine ⟨k, by omega, ?_⟩
            refine List.IsPrefix.trans ?_ h''
            obtain ⟨r, hr⟩ := grow (show n ≤ n + 1 by omega)
            -- nothing was returned in between, or at least the message is still to be returned
            obtain ⟨b, hb⟩ := rinv_run rinv_init (history_rpast hx n)
            cases he : ev n with
            | none => rw [hx.nothing n he]; exact List.prefix_refl _
            | some ee =>
              have hs := hx.event n ee he
              have hne : ee ≠ .ret g := by
                rintro rfl
                simp only [rstep, hc n, hat, Bool.false_eq_true, if_false, Option.some.injEq] at hs
                rw [← hs] at h'
                simp [RState.go] at h'
              have : returnedTo g (st (n + 1)) = returnedTo g (st n) := by
                generalize st (n + 1) = f' at hs
                unfold rstep at hs
                rw [hc n, if_neg (by simp)] at hs
                cases ee with
                | call g' o => simp only at hs; split at hs <;> first | (simp at hs; done) | (simp only [Option.some.injEq] at hs; subst hs; rfl)
                | take g' w =>
                  simp only at hs
                  split at hs
                  · obtain ⟨s', _, rfl⟩ := Option.map_eq_some_iff.mp hs; rfl
                  · simp at hs
                | tau g' =>
                  simp only at hs
                  split at hs
                  · obtain ⟨s', _, rfl⟩ := Option.map_eq_some_iff.mp hs; rfl
                  · simp at hs
                | ret g' =>
                  have hgg : g' ≠ g := fun h => hne (by rw [h])
                  simp only at hs
                  split at hs
                  · simp only [Option.some.injEq] at hs
                    subst hs
                    show ofGoroutine g ((st n).results ++ _) = _
                    rw [ofGoroutine_append, ofGoroutine_single, if_neg hgg, List.append_nil]; rfl
                  · simp only [Option.some.injEq] at hs; subst hs; rfl
                  · simp at hs
                | other e =>
                  cases e <;> simp only at hs <;> first | (simp at hs; done) | (obtain ⟨s', _, rfl⟩ := Option.map_eq_some_iff.mp hs; rfl)
              rw [this]; exact List.prefix_refl _
          cases he : ev n with
          | none => exact go (by rw [hx.nothing n he]; exact hat)
          | some ee =>
            by_cases hret : ee = .ret g
            · subst hret
              refine ⟨n + 1, by omega, ?_⟩
              have hs := hx.event n _ he
              simp only [rstep, hc n, hat, Bool.false_eq_true, if_false, Option.some.injEq] at hs
              rw [← hs]
              show _ <+: messages (ofGoroutine g ((st n).results ++ [(g, some x)]))
              rw [ofGoroutine_append, ofGoroutine_single, if_pos rfl]
              simp [messages, returnedTo]
            · refine go ?_
              have hs := hx.event n _ he
              cases hr : isReceiverOf g ee with
              | false =>
                rw [at_other hs g hr ?_ (by rw [hat]; simp)]
                · exact hat
                · rintro rfl
                  simp [rstep, hc n, hat] at hs
              | true =>
                exfalso
                cases ee with
                | call g' o =>
                  cases o with
                  | endCall => simp [isReceiverOf] at hr
                  | receive =>
                    have : g' = g := by simpa [isReceiverOf] using hr
                    subst this
                    simp [rstep, hc n, hat] at hs
                | take g' w =>
                  have : g' = g := by simpa [isReceiverOf] using hr
                  subst this
                  simp [rstep, hc n, hat] at hs
                | ret g' =>
                  have : g' = g := by simpa [isReceiverOf] using hr
                  exact hret (by rw [this])
                | tau g' => simp [isReceiverOf] at hr
                | other e => simp [isReceiverOf] at hr
      obtain ⟨k, hk, h'⟩ := key (m - n) n (by omega) hh
      exact ⟨k, hk, by rw [ha.own, hh]; exact h'⟩
  | _ => exact ⟨n, Nat.le_refl _, by rw [ha.own, hh]; simp [held]⟩

/-- **C102.** In an endless execution in which calls that can return do so, every message that leaves the receiver is returned
by the call it was given to: for every moment `n` there is one at which the goroutines have got all that had left it at `n`. -/
theorem C102_returned (t : Transport) (lenQueue : Nat) (ev : Nat → Option REvent) (st : Nat → RState) (hx : RExec t lenQueue ev st)
    (hc : ∀ n, (st n).s.crashed = false) (hret : ∀ g, Returns t lenQueue g ev st) (n : Nat) :
    ∃ a m, a.map (·.2) = (st n).s.got ∧ ∀ g, ofGoroutine g a <+: messages (returnedTo g (st m)) := by
  obtain ⟨a, ha⟩ := rinv_run rinv_init (history_rpast hx n)
  rw [List.nil_append] at ha
  have grow : ∀ (g : Nat) {n m : Nat}, n ≤ m → messages (returnedTo g (st n)) <+: messages (returnedTo g (st m)) := by
    intro g n m h
    induction h with
    | refl => exact List.prefix_refl _
    | @step m _ ih =>
      refine ih.trans ?_
      have hg : (st m).results <+: (st (m + 1)).results := by
        cases he : ev m with
        | none => rw [hx.nothing m he]; exact List.prefix_refl _
        | some e => exact results_grow (h := [e]) (by simp only [rrun]; rw [hx.event m e he]; rfl)
      obtain ⟨r, hr⟩ := hg
      unfold returnedTo
      rw [← hr, ofGoroutine_append]
      unfold messages
      rw [List.filterMap_append]
      exact List.prefix_append _ _
  -- the goroutines that were given something are finitely many
  obtain ⟨K, hK⟩ : ∃ K, ∀ x ∈ a, x.1 < K := by
    clear ha
    induction a with
    | nil => exact ⟨0, fun x hx => by simp at hx⟩
    | cons y l ih =>
      obtain ⟨K, hK⟩ := ih
      refine ⟨max K (y.1 + 1), ?_⟩
      intro x hx
      rcases List.mem_cons.mp hx with rfl | hx
      · omega
      · have := hK x hx; omega
  obtain ⟨m, _, hm⟩ := common_moment (fun g m => ofGoroutine g a <+: messages (returnedTo g (st m)))
    (fun g n m h h' => h'.trans (grow g h)) K (fun g _ => (taken_returned hx hc (hret g) ha).imp fun _ h => h.2) 0
  refine ⟨a, m, ha.all, ?_⟩
  intro g
  rcases Nat.lt_or_ge g K with h | h
  · exact hm g h
  · have : ofGoroutine g a = [] := by
      unfold ofGoroutine
      rw [List.map_eq_nil_iff, List.filter_eq_nil_iff]
      intro x hx
      have := hK x hx
      simp; omega
    rw [this]; exact List.nil_prefix

/-- **C102.** From `Send` to the goroutines that call `Receive` (RFC 5425, the fair executions of C84): if one goroutine calls
`Receive` again and again, every message given to `Send` is returned, eventually, by exactly one call of some goroutine. `a`
says which one; what it has from connection `i` begins with the messages that were sent, in order, with all their fields. -/
theorem C102_delivered (ev : Nat → Option Sender.Event) (st : Nat → Sender.State) (hx : SenderExec .rfc5425 ev st)
    (hrun : Running .rfc5425 ev st) (hread : ErrorsRead st) (hrec : Recovers ev) (hend : ∀ n, (st n).endAsked = false)
    (hcs : ∀ n, (st n).crashed = false)
    (hw : ∀ n nb e, ev n ≠ some (.write nb (some e))) (hmsgs : ∀ n, ∀ m ∈ sent (past ev n), Transmissible m)
    (lenQueue : Nat) (er : Nat → Option REvent) (sr : Nat → RState) (hxr : RExec .rfc5425 lenQueue er sr)
    (hc : ∀ n, (sr n).s.crashed = false) (g0 : Nat) (hworker : Worker .rfc5425 lenQueue g0 er sr) (hret : ∀ g, Returns .rfc5425 lenQueue g er sr)
    (herr : ErrorsDrained fun n => (sr n).s) (i : Nat)
    (hserve : Served .rfc5425 lenQueue i (fun n => (er n).bind atOnce) (fun n => (sr n).s)) (hi : ∃ n, i < (sr n).s.conns.length)
    (hlink : Link st i (fun n => (er n).bind atOnce)) (n : Nat) :
    ∃ a m, Each IsReceived (sent (past ev n)) ((ofConn i (a.map (·.2))).take (sent (past ev n)).length) ∧
      ∀ g, ofGoroutine g a <+: messages (returnedTo g (sr m)) := by
  obtain ⟨k, h⟩ := C84_delivered ev st hx hrun hread hrec hend hcs hw hmsgs lenQueue _ _ (rexec_atOnce hxr)
    (C102_one_worker _ _ er sr hxr hc g0 hworker) herr hc i hserve hi hlink n
  obtain ⟨a, m, h1, h2⟩ := C102_returned _ _ er sr hxr hc hret k
  exact ⟨a, m, by rw [h1]; exact h, h2⟩

/-- **C102**, with the LF and NUL transports. -/
theorem C102_lines (t : Transport) (z : UInt8) (ht : t = .lfEnded ∧ z = 10 ∨ t = .zeroEnded ∧ z = 0)
    (ev : Nat → Option Sender.Event) (st : Nat → Sender.State) (hx : SenderExec t ev st)
    (hrun : Running t ev st) (hread : ErrorsRead st) (hrec : Recovers ev) (hend : ∀ n, (st n).endAsked = false)
    (hcs : ∀ n, (st n).crashed = false)
    (hw : ∀ n nb e, ev n ≠ some (.write nb (some e))) (hmsgs : ∀ n, ∀ m ∈ sent (past ev n), TransmissibleLine z m)
    (lenQueue : Nat) (er : Nat → Option REvent) (sr : Nat → RState) (hxr : RExec t lenQueue er sr)
    (hc : ∀ n, (sr n).s.crashed = false) (g0 : Nat) (hworker : Worker t lenQueue g0 er sr) (hret : ∀ g, Returns t lenQueue g er sr)
    (herr : ErrorsDrained fun n => (sr n).s) (i : Nat)
    (hserve : Served t lenQueue i (fun n => (er n).bind atOnce) (fun n => (sr n).s)) (hi : ∃ n, i < (sr n).s.conns.length)
    (hlink : Link st i (fun n => (er n).bind atOnce)) (n : Nat) :
    ∃ a m, Each IsReceived (sent (past ev n)) ((ofConn i (a.map (·.2))).take (sent (past ev n)).length) ∧
      ∀ g, ofGoroutine g a <+: messages (returnedTo g (sr m)) := by
  obtain ⟨k, h⟩ := C84_lines t z ht ev st hx hrun hread hrec hend hcs hw hmsgs lenQueue _ _ (rexec_atOnce hxr)
    (C102_one_worker _ _ er sr hxr hc g0 hworker) herr hc i hserve hi hlink n
  obtain ⟨a, m, h1, h2⟩ := C102_returned _ _ er sr hxr hc hret k
  exact ⟨a, m, by rw [h1]; exact h, h2⟩

/-! ## a history that meets the hypotheses

Two goroutines call `Receive`; two messages arrive in one read. Goroutine 1 is given the first message, goroutine 0 the second
and returns first; both call `Receive` again. -/

def demoShared : List REvent :=
  [.call 0 .receive, .call 1 .receive, .other .tau, .other .acceptOk, .other (.read 0 { data := demoFrame ++ demoFrame }),
   .take 1 (.direct 0), .take 0 (.direct 0), .ret 0, .ret 1]

example : (match rrun .rfc5425 0 rinit demoShared with
    | some f => !f.s.crashed && decide (f.results.map (·.1) = [0, 1]) && decide (f.s.got.length = 2) && decide ((messages (returnedTo 0 f)).length = 1) &&
      decide ((messages (returnedTo 1 f)).length = 1) && (match f.at_ 0, f.at_ 1 with | .idle, .idle => true | _, _ => false)
    | none => false) = true := by decide +kernel

/-! An endless execution: the message of C84 arrives; goroutine 1 is given it; then both wait in `Receive`. -/

def demoPool : List REvent :=
  [.call 0 .receive, .call 1 .receive, .other .tau, .other .acceptOk, .other (.read 0 { data := demoFrame.take 50 }),
   .other (.read 0 { data := demoFrame.drop 50 }), .take 1 (.direct 0), .ret 1, .call 1 .receive]

/-- A finite history, then nothing. -/
def rfinSt (t : Transport) (q : Nat) (es : List REvent) (n : Nat) : RState := (rrun t q rinit (es.take n)).getD rinit

theorem rfin_exec {t : Transport} {q : Nat} {es : List REvent} {f : RState} (h : rrun t q rinit es = some f) :
    RExec t q (fun n => es[n]?) (rfinSt t q es) := by
  have hpre : ∀ n, ∃ s1, rrun t q rinit (es.take n) = some s1 := by
    intro n
    rw [← List.take_append_drop n es, rrun_append] at h
    cases h1 : rrun t q rinit (es.take n) with
    | none => rw [h1] at h; cases h
    | some s1 => exact ⟨s1, rfl⟩
  refine ⟨rfl, ?_, ?_⟩
  · intro n e he
    obtain ⟨s1, h1⟩ := hpre n
    obtain ⟨s2, h2⟩ := hpre (n + 1)
    simp only [rfinSt, h1, h2, Option.getD_some]
    rw [List.take_add_one, he, Option.toList, rrun_append, h1] at h2
    simp only [Option.bind_some, rrun] at h2
    cases h3 : rstep t q s1 e with
    | none => rw [h3] at h2; cases h2
    | some s3 => rw [h3] at h2; exact h2
  · intro n he
    simp only [rfinSt]
    rw [List.take_add_one, he]
    simp

theorem rfin_end {t : Transport} {q : Nat} {es : List REvent} {f : RState} (h : rrun t q rinit es = some f) {n : Nat} (hn : es.length ≤ n) :
    rfinSt t q es n = f := by
  unfold rfinSt
  rw [List.take_of_length_le hn, h]
  rfl

/-- A goroutine of which there is no event is in no call. -/
theorem untouched {t : Transport} {q : Nat} {g : Nat} {es : List REvent} {f f' : RState} (h : rrun t q f es = some f') (hi : f.at_ g = .idle)
    (hno : ∀ e ∈ es, isReceiverOf g e = false ∧ e ≠ .call g .endCall) : f'.at_ g = .idle := by
  induction es generalizing f with
  | nil => simp only [rrun, Option.some.injEq] at h; rw [← h]; exact hi
  | cons e r ih =>
    obtain ⟨f1, h1, h2⟩ := Option.bind_eq_some_iff.mp h
    have he := hno e List.mem_cons_self
    exact ih h2 (by rw [at_other h1 g he.1 he.2 (by rw [hi]; simp), hi]) (fun e h => hno e (List.mem_cons_of_mem _ h))

theorem demoPool_run : ∃ f, rrun .rfc5425 0 rinit demoPool = some f ∧ f.s.crashed = false ∧ f.s.pipeline = [] ∧ f.s.pipelineClosed = false ∧ f.s.errs = 0 ∧
    f.s.conns.length = 1 ∧ (∀ c ∈ f.s.conns, c.pending = [] ∧ c.errPending = false) ∧ f.at_ 0 = .waiting ∧ f.at_ 1 = .waiting := by
  have h : (match rrun .rfc5425 0 rinit demoPool with
      | some f => !f.s.crashed && f.s.pipeline.isEmpty && !f.s.pipelineClosed && decide (f.s.errs = 0) && decide (f.s.conns.length = 1) &&
        (f.s.conns.all fun c => c.pending.isEmpty && !c.errPending) && (match f.at_ 0, f.at_ 1 with | .waiting, .waiting => true | _, _ => false)
      | none => false) = true := by decide +kernel
  cases hq : rrun .rfc5425 0 rinit demoPool with
  | none => rw [hq] at h; cases h
  | some f =>
    rw [hq] at h
    simp only [Bool.and_eq_true, Bool.not_eq_true', List.isEmpty_iff, decide_eq_true_eq, List.all_eq_true] at h
    obtain ⟨⟨⟨⟨⟨⟨a1, a2⟩, a3⟩, a4⟩, a5⟩, a6⟩, a7⟩ := h
    refine ⟨f, rfl, a1, a2, a3, a4, a5, a6, ?_⟩
    split at a7
    · next e1 e2 => exact ⟨e1, e2⟩
    · cases a7

example : ∃ ev st er sr, SenderExec .rfc5425 ev st ∧ Running .rfc5425 ev st ∧ ErrorsRead st ∧ Recovers ev ∧
    (∀ n, (st n).endAsked = false) ∧ (∀ n, (st n).crashed = false) ∧ (∀ n nb e, ev n ≠ some (.write nb (some e))) ∧
    sent (past ev 1) = [demoMsg] ∧ RExec .rfc5425 0 er sr ∧ (∀ n, (sr n).s.crashed = false) ∧
    Worker .rfc5425 0 0 er sr ∧ Worker .rfc5425 0 1 er sr ∧ (∀ g, Returns .rfc5425 0 g er sr) ∧ (ErrorsDrained fun n => (sr n).s) ∧
    Served .rfc5425 0 0 (fun n => (er n).bind atOnce) (fun n => (sr n).s) ∧ (∃ n, 0 < (sr n).s.conns.length) ∧
    Link st 0 (fun n => (er n).bind atOnce) := by
  obtain ⟨f, hf, h1, h2, h3, h4, h5, h6, h7, h8⟩ := demoPool_run
  have hx := rfin_exec hf
  have hend : ∀ n, 9 ≤ n → rfinSt .rfc5425 0 demoPool n = f := fun n hn => rfin_end hf hn
  obtain ⟨g1, g2, g3, g4, g5, g6, g7⟩ := exForeverOf_fair (t := .rfc5425) (m := demoMsg) (size := 153) demoForever_steps
    (by decide +kernel) (by decide +kernel) (by decide +kernel)
  have hbytes : ∀ n, firstBytes (lassoSt .rfc5425 demoForever 15 5 n) = if lasso 15 5 n ≤ 11 then [] else demoFrame :=
    fun n => demoForever_bytes _ (lasso_succ 15 5 n (by omega)).1
  have hget : ∀ (j : Nat) (c : Recv.Conn), f.s.conns[j]? = some c → c.pending = [] ∧ c.errPending = false :=
    fun j c hj => h6 c (List.mem_of_getElem? hj)
  have hstep : ∀ e, (isReceive e = true ∨ isWorker 0 e = true ∨ e = .recvClosed) → step .rfc5425 0 f.s e = none := by
    intro e hr
    unfold step
    split
    · rfl
    cases e with
    | recv => simp [h2]
    | sendErr j =>
      simp only
      cases hj : f.s.conns[j]? with
      | none => rfl
      | some c => simp [(hget j c hj).2]
    | sendMsg j =>
      simp only
      cases hj : f.s.conns[j]? with
      | none => rfl
      | some c => simp [(hget j c hj).1]
    | handoff j =>
      simp only
      cases hj : f.s.conns[j]? with
      | none => rfl
      | some c => simp [(hget j c hj).1]
    | recvClosed => simp [h3]
    | _ => simp [isReceive, isWorker] at hr
  have hat : ∀ g, f.at_ g = .waiting ∨ f.at_ g = .idle := by
    intro g
    match g with
    | 0 => exact Or.inl h7
    | 1 => exact Or.inl h8
    | g + 2 =>
      right
      refine untouched hf rfl ?_
      intro e he
      simp only [demoPool, List.mem_cons, List.not_mem_nil, or_false] at he
      rcases he with rfl | rfl | rfl | rfl | rfl | rfl | rfl | rfl | rfl <;> simp [isReceiverOf]
  have hwork : ∀ g, f.at_ g = .waiting → (∀ n : Nat, demoPool[n]? ≠ some (REvent.call g .endCall)) → Worker .rfc5425 0 g (fun n => demoPool[n]?) (rfinSt .rfc5425 0 demoPool) := by
    intro g hg hno
    refine ⟨fun n => ⟨max n 9, Nat.le_max_left _ _, Or.inr ?_⟩, hno⟩
    intro e he
    rw [hend _ (Nat.le_max_right _ _)]
    unfold rstep
    split
    · rfl
    cases e with
    | call g' o =>
      cases o with
      | endCall => simp [isReceiverOf] at he
      | receive =>
        have : g' = g := by simpa [isReceiverOf] using he
        subst this
        simp [hg]
    | take g' w =>
      have : g' = g := by simpa [isReceiverOf] using he
      subst this
      simp only [hg, Option.map_eq_none_iff]
      exact hstep _ (by cases w <;> simp [Way.event, isReceive])
    | ret g' =>
      have : g' = g := by simpa [isReceiverOf] using he
      subst this
      simp [hg]
    | tau g' => simp [isReceiverOf] at he
    | other e => simp [isReceiverOf] at he
  have hnoend : ∀ g (n : Nat), demoPool[n]? ≠ some (REvent.call g .endCall) := by
    intro g n h
    have := List.mem_of_getElem? h
    simp [demoPool] at this
  have hcr : ∀ n, (rfinSt .rfc5425 0 demoPool n).s.crashed = false := by
    intro n
    cases hcr : (rfinSt .rfc5425 0 demoPool n).s.crashed with
    | false => rfl
    | true =>
      exfalso
      have := stays hx (fun s => s.s.crashed = true) n hcr (by
        intro m _ e he hm
        have := hx.event m e he
        simp [rstep, hm] at this) (max n 9) (Nat.le_max_left _ _)
      rw [hend _ (Nat.le_max_right _ _), h1] at this
      cases this
  have hpast : ∀ m, past (fun n => (demoPool[n]?).bind atOnce) m = (demoPool.take m).filterMap atOnce := by
    intro m
    induction m with
    | zero => rfl
    | succ m ih =>
      rw [past_succ, ih, List.take_add_one, List.filterMap_append]
      congr 1
      cases demoPool[m]? with
      | none => rfl
      | some e => simp only [Option.bind_some, Option.toList, List.filterMap_cons, List.filterMap_nil]; cases atOnce e <;> rfl
  refine ⟨lassoEv demoForever 15 5, lassoSt .rfc5425 demoForever 15 5, fun n => demoPool[n]?, rfinSt .rfc5425 0 demoPool,
    g1, g2, g3, g4, g5, g6, g7, rfl, hx, hcr, hwork 0 h7 (hnoend 0), hwork 1 h8 (hnoend 1), ?_, ?_, ?_, ⟨9, ?_⟩, ⟨?_, ?_⟩⟩
  · intro g n
    refine ⟨max n 9, Nat.le_max_left _ _, Or.inr ?_⟩
    intro e he
    rw [hend _ (Nat.le_max_right _ _)]
    cases e <;> simp only [reduceCtorEq, Bool.false_eq_true] at he
    rename_i g'
    have hgg : g' = g := by simpa using he
    subst hgg
    rcases hat g' with h | h <;> simp [rstep, h1, h]
  · intro n
    refine ⟨max n 9, Nat.le_max_left _ _, ?_⟩
    simp only [hend _ (Nat.le_max_right n 9), h4]; decide
  · intro hen
    obtain ⟨m, hm, e, e1, e2⟩ := hen 9
    simp only [hend m hm] at e2
    exact absurd (hstep e (Or.inr (Or.inl e1))) e2
  · simp only [hend 9 (Nat.le_refl _)]; omega
  · intro m
    refine ⟨15, ?_⟩
    rw [hbytes 15, hpast]
    have ha : arrived (readsOf 0 (demoPool.filterMap atOnce)) = demoFrame := by decide +kernel
    obtain ⟨r, hr⟩ := List.take_prefix m demoPool
    rw [← hr, List.filterMap_append, Recv.readsOf_append] at ha
    rw [if_neg (by decide), ← ha]
    simp only [arrived, List.flatMap_append]
    exact List.prefix_append _ _
  · intro n
    refine ⟨9, ?_⟩
    rw [hpast]
    have ha : arrived (readsOf 0 ((demoPool.take 9).filterMap atOnce)) = demoFrame := by decide +kernel
    rw [ha, hbytes n]
    split
    · exact List.nil_prefix
    · exact List.prefix_refl _

end Syslog5424
