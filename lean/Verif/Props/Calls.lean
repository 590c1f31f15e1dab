import Verif.Lemmas.Calls
import Mathlib.Data.List.Induction
import Verif.Props.Sender
/-! # C92: calls of `Send` and `End` by several goroutines look as if they took place at once -/
namespace Syslog5424
open Spec Sender

/-- C92: every history in which the calls are made of steps, interleaved in any way, is explained by calls that take place
at once, between their beginning and their end: the explanation of a longer history is a continuation, so a call that
returned takes place before one that begins later. -/
theorem C92_linearizable (t : Transport) (h h' : List FEvent) (f f' : FState) (h1 : FHistory t h f)
    (h2 : frun t f h' = some f') : ∃ l l', Explains t h f l ∧ Explains t (h ++ h') f' (l ++ l') := by
  obtain ⟨l, hl⟩ := cinv_run (cinv_init t) h1
  obtain ⟨l', hl'⟩ := cinv_run hl h2
  exact ⟨[] ++ l, l', by simpa using hl.ex, by simpa using hl'.ex⟩

theorem no_other_send {t : Transport} {h : List FEvent} {f f' : FState} (hr : frun t f h = some f') :
    ∀ m, Event.send m ∉ others h := by
  induction h generalizing f with
  | nil => intro m hm; cases hm
  | cons e r ih =>
    simp only [frun] at hr
    cases hs : fstep t f e with
    | none => rw [hs] at hr; cases hr
    | some f1 =>
      rw [hs] at hr
      have := ih hr
      cases e with
      | other e =>
        intro m hm
        rcases List.mem_cons.1 hm with he | hm
        · subst he
          unfold fstep at hs
          split at hs <;> cases hs
        · exact this m hm
      | call _ _ => exact this
      | tau _ => exact this
      | ret _ => exact this

/-- The accepted messages of a sequence of calls that take place at once. -/
def sendsOf (l : List (Option Nat × Event)) : List (Nat × Message) :=
  l.filterMap fun x => match x.1 with
    | some g => (acceptedSend x.2).map fun m => (g, m)
    | none => none

theorem frames_sendsOf (t : Transport) (l : List (Option Nat × Event)) (h : ∀ m, Event.send m ∉ rest l) :
    frames t (l.map (·.2)) = (sendsOf l).map fun x => frameOf t x.2 := by
  induction l with
  | nil => rfl
  | cons x r ih =>
    obtain ⟨g, e⟩ := x
    have hr : ∀ m, Event.send m ∉ rest r := by
      intro m hm
      apply h m
      simp only [rest, List.mem_map, List.mem_filter] at hm ⊢
      obtain ⟨y, ⟨hy, hy'⟩, he⟩ := hm
      exact ⟨y, ⟨List.mem_cons_of_mem _ hy, hy'⟩, he⟩
    cases e with
    | send m =>
      cases g with
      | none => exact absurd (by simp [rest]) (h m)
      | some g =>
        simp only [List.map_cons, frames, sendsOf, List.filterMap_cons, acceptedSend]
        cases hm : m.marshal with
        | ret x =>
          cases x with
          | ok b =>
            simp only [Option.map_some, List.map_cons, frameOf, hm]
            rw [ih hr]; rfl
          | error e => exact ih hr
        | panic => exact ih hr
        | hang => exact ih hr
    | _ => cases g <;> exact ih hr

theorem ofGoroutine_sendsOf (g : Nat) (l : List (Option Nat × Event)) :
    ofGoroutine g (sendsOf l) = (own g l).filterMap acceptedSend := by
  induction l with
  | nil => rfl
  | cons x r ih =>
    obtain ⟨g', e⟩ := x
    cases g' with
    | none =>
      have h1 : sendsOf ((none, e) :: r) = sendsOf r := rfl
      have h2 : own g ((none, e) :: r) = own g r := by simp [own]
      rw [h1, h2, ih]
    | some g' =>
      by_cases hg : g' = g
      · subst hg
        have h2 : own g' ((some g', e) :: r) = e :: own g' r := by simp [own]
        rw [h2, List.filterMap_cons]
        cases ha : acceptedSend e with
        | none =>
          have h1 : sendsOf ((some g', e) :: r) = sendsOf r := by simp [sendsOf, ha]
          rw [h1, ih]
        | some m =>
          have h1 : sendsOf ((some g', e) :: r) = (g', m) :: sendsOf r := by simp [sendsOf, ha]
          rw [h1, ← ih]; simp [ofGoroutine]
      · have h2 : own g ((some g', e) :: r) = own g r := by simp [own, hg]
        rw [h2, ← ih]
        cases ha : acceptedSend e with
        | none =>
          have h1 : sendsOf ((some g', e) :: r) = sendsOf r := by simp [sendsOf, ha]
          rw [h1]
        | some m =>
          have h1 : sendsOf ((some g', e) :: r) = (g', m) :: sendsOf r := by simp [sendsOf, ha]
          rw [h1]; simp [ofGoroutine, hg]

theorem accepted_map (ops : List CallOp) : (ops.map opEvent).filterMap acceptedSend = accepted ops := by
  simp [accepted, List.filterMap_map, Function.comp_def]

theorem Spec.Explains.accepted {t : Transport} {h : List FEvent} {f : FState} {l : List (Option Nat × Event)}
    (he : Explains t h f l) : Accepted h (sendsOf l) := by
  intro g
  rw [ofGoroutine_sendsOf, ← accepted_map, ← accepted_map]
  have ho := he.order g
  refine ⟨List.IsPrefix.filterMap _ ?_, List.IsPrefix.filterMap _ ho⟩
  rw [List.map_take]
  have : own g l = ((called g h).map opEvent).take (own g l).length := List.prefix_iff_eq_take.1 ho
  rw [this]
  exact List.take_prefix_take_left (he.done g)

theorem Spec.Explains.data {t : Transport} {h : List FEvent} {f : FState} {l : List (Option Nat × Event)}
    (hh : FHistory t h f) (he : Explains t h f l) :
    writtenAndWaiting f.s = ((sendsOf l).map fun x => frameOf t x.2).flatten := by
  have hn : ∀ m, Event.send m ∉ rest l := by rw [he.others]; exact no_other_send hh
  rw [← frames_sendsOf t l hn]
  exact C34_exactly_once t _ _ he.state

/-- C92: what is written and what waits are the accepted messages of all goroutines, each once: every goroutine's in the
order of its calls; and a message whose `Send` returned (in `h`) comes before every message whose `Send` was called later
(in `h'`). -/
theorem C92_order (t : Transport) (h h' : List FEvent) (f f' : FState) (h1 : FHistory t h f)
    (h2 : frun t f h' = some f') : ∃ a b,
      Accepted h a ∧ Accepted (h ++ h') (a ++ b) ∧
      writtenAndWaiting f.s = (a.map fun x => frameOf t x.2).flatten ∧
      writtenAndWaiting f'.s = ((a ++ b).map fun x => frameOf t x.2).flatten := by
  obtain ⟨l, l', e1, e2⟩ := C92_linearizable t h h' f f' h1 h2
  have h3 : FHistory t (h ++ h') f' := by
    unfold FHistory at h1 ⊢
    rw [frun_append, h1]; exact h2
  have hs : sendsOf (l ++ l') = sendsOf l ++ sendsOf l' := by simp [sendsOf, List.filterMap_append]
  exact ⟨sendsOf l, sendsOf l', e1.accepted, hs ▸ e2.accepted, e1.data h1, hs ▸ e2.data h3⟩

/-- C92: `Send` returns nil for a message that can be marshalled, else the error of `Marshal5424`. -/
theorem C92_result (t : Transport) (h : List FEvent) (f : FState) (h1 : FHistory t h f) (hc : f.s.crashed = false)
    (g : Nat) (m : Message) (e : Option Err) (hat : f.at_ g = .retSend m e) :
    (∃ b, e = none ∧ m.marshal = .ret (.ok b)) ∨ (∃ x, e = some x ∧ m.marshal = .ret (.error x)) := by
  obtain ⟨l, hl⟩ := cinv_run (cinv_init t) h1
  have := hl.place hc g
  rw [hat] at this
  cases e with
  | none => obtain ⟨-, b, hb⟩ := this; exact Or.inl ⟨b, rfl, hb⟩
  | some x => exact Or.inr ⟨x, rfl, this.2⟩

/-- The explanation of a history at whose end a call of `End` returns: what took place before that call began is written. -/
theorem end_explained (t : Transport) (h h' : List FEvent) (g : Nat) (f f' : FState) (h1 : FHistory t h f)
    (h2 : FHistory t (h ++ .call g .endCall :: h' ++ [.ret g]) f') (hone : called g h' = []) :
    ∃ l l', Explains t h f l ∧ Explains t (h ++ .call g .endCall :: h' ++ [.ret g]) f' (l ++ l') ∧
      ((sendsOf l).map fun x => frameOf t x.2).flatten <+: wire f'.s := by
  obtain ⟨l, hl⟩ := cinv_run (cinv_init t) h1
  unfold FHistory at h1 h2
  rw [List.append_assoc, frun_append, h1] at h2
  simp only [Option.bind_some] at h2
  rw [frun_append] at h2
  cases h3 : frun t f (.call g .endCall :: h') with
  | none => rw [h3] at h2; cases h2
  | some f1 =>
    rw [h3] at h2
    simp only [Option.bind_some, frun] at h2
    cases h4 : fstep t f1 (.ret g) with
    | none => rw [h4] at h2; cases h2
    | some f2 =>
      rw [h4] at h2
      simp only [Option.bind_some, Option.some.injEq] at h2
      subst h2
      have h40 := h4
      obtain ⟨l', hl'⟩ := cinv_run hl h3
      have hcr : f1.s.crashed = false := by
        cases hc : f1.s.crashed with
        | false => rfl
        | true => simp [fstep, hc] at h4
      have hcalled : called g ([] ++ h ++ .call g .endCall :: h') = called g h ++ [.endCall] := by
        rw [List.nil_append, called_append]
        simp [called, hone]
      have hp := hl'.place hcr g
      rw [hcalled] at hp
      unfold fstep at h4
      rw [if_neg (by rw [hcr]; decide)] at h4
      have key : After .endCall (called g h ++ [.endCall]) (own g ([] ++ l ++ l')) (returns g ([] ++ h ++ .call g .endCall :: h')) ∧
          f1.s.endCompleted = true ∧ f2.s = f1.s := by
        simp only at h4
        split at h4
        · rename_i m e hat
          rw [hat] at hp
          have : After (.send m) (called g h ++ [.endCall]) (own g ([] ++ l ++ l')) (returns g ([] ++ h ++ .call g .endCall :: h')) := by
            cases e <;> exact hp.1
          obtain ⟨c', hc', -⟩ := this
          have := (List.append_inj' hc' rfl).2
          cases this
        · rename_i hat
          rw [hat] at hp
          split at h4
          · rename_i hend
            simp only [Option.some.injEq] at h4; subst h4
            exact ⟨hp, hend, rfl⟩
          · cases h4
        · cases h4
      obtain ⟨⟨c', hc', hown, hret⟩, hend, hs⟩ := key
      -- the call of End takes place in the continuation
      have hown1 := (hl.ex.order g).length_le
      rw [List.length_map] at hown1
      have hlen : (own g ([] ++ l ++ l')).length = (called g h).length + 1 := by rw [hown]; simp
      have hmem : Event.endCall ∈ l'.map (·.2) := by
        rw [List.nil_append, own_append] at hown
        rw [List.nil_append] at hl
        have hpos : own g l' ≠ [] := by
          intro h0
          rw [List.nil_append, own_append, h0, List.append_nil] at hlen
          simp only [List.nil_append] at hown1
          omega
        obtain ⟨r, x, hx⟩ := (List.eq_nil_or_concat (own g l')).resolve_left hpos
        rw [hx, List.concat_eq_append, List.map_append, ← List.append_assoc] at hown
        have hxe : x = .endCall := by
          have := (List.append_inj' hown rfl).2
          simpa [opEvent] using this
        have hin : x ∈ own g l' := by rw [hx, List.concat_eq_append]; simp
        simp only [own, List.mem_map, List.mem_filter] at hin
        obtain ⟨y, ⟨hy, -⟩, hy'⟩ := hin
        rw [← hxe, ← hy']
        exact List.mem_map_of_mem hy
      obtain ⟨u, v, huv⟩ := List.append_of_mem hmem
      have hst := hl'.ex.state
      rw [List.nil_append, List.map_append, huv, ← List.append_assoc] at hst
      have hfl := C35_end_flushes t _ _ f1.s hst hend hcr
      have he : Explains t h f l := by simpa using hl.ex
      have h5 : frun t f1 [.ret g] = some f2 := by
        simp only [frun, Option.bind_some]
        rw [h40]; rfl
      obtain ⟨l'', hl''⟩ := cinv_run hl' h5
      refine ⟨l, l' ++ l'', he, by simpa using hl''.ex, ?_⟩
      have hn : ∀ m, Event.send m ∉ rest l := by rw [he.others]; exact no_other_send h1
      rw [hs, ← frames_sendsOf t l hn]
      refine List.IsPrefix.trans ?_ hfl
      rw [show frames t (l.map (·.2) ++ u) = frames t (l.map (·.2)) ++ frames t u from frames_append .., List.flatten_append]
      exact List.prefix_append _ _

/-- C92: when a call of `End` returns, everything whose `Send` returned before that call of `End` began is written. -/
theorem C92_end (t : Transport) (h h' : List FEvent) (g : Nat) (f f' : FState) (h1 : FHistory t h f)
    (h2 : FHistory t (h ++ .call g .endCall :: h' ++ [.ret g]) f') (hone : called g h' = []) :
    ∃ a, Accepted h a ∧ (a.map fun x => frameOf t x.2).flatten <+: wire f'.s := by
  obtain ⟨l, _, e1, _, e3⟩ := end_explained t h h' g f f' h1 h2 hone
  exact ⟨sendsOf l, e1.accepted, e3⟩

/-- C92: a goroutine inside `Send` that holds the lock releases it by its own next steps, whatever the others do; nobody else
holds it at the same time. -/
theorem C92_lock (t : Transport) (h : List FEvent) (f : FState) (h1 : FHistory t h f) (hc : f.s.crashed = false)
    (g : Nat) (hg : f.holder = some g) :
    f.s.locked = false ∧ (∀ g', inside (f.at_ g') = true → g' = g) ∧
    ∃ es f', es.length ≤ 2 ∧ (∀ e ∈ es, e = .tau g) ∧ frun t f es = some f' ∧ f'.holder = none := by
  obtain ⟨l, hl⟩ := cinv_run (cinv_init t) h1
  refine ⟨hl.excl (by rw [hg]; rfl), ?_, ?_⟩
  · intro g' hi
    have := (hl.hold hc g').2 hi
    rw [hg] at this
    exact (Option.some.inj this).symm
  · have hin := (hl.hold hc g).1 hg
    cases hat : f.at_ g with
    | append m b =>
      exact ⟨[.tau g, .tau g],
        { ({ f with s := { f.s with queue := f.s.queue ++ [t.encode b] } }.go g (.unlock m)) with holder := none }.go g (.retSend m none),
        Nat.le_refl _, by simp, by simp only [frun, fstep, hc, hat, Bool.false_eq_true, if_false, Option.bind_some, go_at]; rfl, rfl⟩
    | unlock m =>
      exact ⟨[.tau g], { f with holder := none }.go g (.retSend m none), by simp, by simp,
        by simp only [frun, fstep, hc, hat, Bool.false_eq_true, if_false, Option.bind_some], rfl⟩
    | _ => rw [hat] at hin; cases hin

/-! ## Examples -/

theorem others_append (a b : List FEvent) : others (a ++ b) = others a ++ others b := by
  induction a with
  | nil => rfl
  | cons e r ih => cases e <;> simp [others, ih]

theorem calls_append (a b : List FEvent) : calls (a ++ b) = calls a ++ calls b := by
  induction a with
  | nil => rfl
  | cons e r ih => cases e <;> simp [calls, ih]

/-- Histories that end with nobody holding the lock and with all goroutines from `n` on not inside a call can be
continued by the steps of one event of `Model/Sender.lean`. -/
theorem complete_step {t : Transport} {f : FState} {s' : State} {e : Event} {n : Nat} (hn : ∀ g, n ≤ g → f.at_ g = .idle)
    (hh : f.holder = none) (hs : step t f.s e = some s') : ∃ h f', frun t f h = some f' ∧ f'.s = s' ∧ f'.holder = none ∧
      (∀ g, n + 1 ≤ g → f'.at_ g = .idle) ∧ calls h = (opOf e).toList ∧ others h = if (opOf e).isSome then [] else [e] := by
  have hc : f.s.crashed = false := by
    cases h : f.s.crashed with
    | false => rfl
    | true => unfold step at hs; rw [h] at hs; cases hs
  have hidle := hn n (Nat.le_refl n)
  obtain ⟨s, ho, at_⟩ := f
  simp only at hn hh hs hc hidle
  subst hh
  have hother : opOf e = none → ∃ h f', frun t ⟨s, none, at_⟩ h = some f' ∧ f'.s = s' ∧ f'.holder = none ∧
      (∀ g, n + 1 ≤ g → f'.at_ g = .idle) ∧ calls h = (opOf e).toList ∧ others h = if (opOf e).isSome then [] else [e] := by
    intro hop
    refine ⟨[.other e], ⟨s', none, at_⟩, ?_, rfl, rfl, fun g hg => hn g (by omega), by rw [hop]; rfl, by rw [hop]; rfl⟩
    simp only [frun]
    have : fstep t ⟨s, none, at_⟩ (.other e) = some ⟨s', none, at_⟩ := by
      cases e <;> first | (cases hop; done) | simp [fstep, hc, hs]
    rw [this]; rfl
  cases e with
  | send m =>
    simp only [step, hc, Bool.false_eq_true, if_false] at hs
    cases hm : m.marshal with
    | hang => rw [hm] at hs; cases hs
    | panic =>
      rw [hm] at hs
      refine ⟨[.call n (.send m), .tau n], ⟨s', none, fun i => if i = n then .marshal m else at_ i⟩, ?_, rfl, rfl, ?_, rfl, rfl⟩
      · cases hs
        simp [frun, fstep, hc, hidle, FState.go, hm]
      · intro g hg
        simp only
        rw [if_neg (by omega)]
        exact hn g (by omega)
    | ret r =>
      cases r with
      | error x =>
        rw [hm] at hs
        cases hs
        refine ⟨[.call n (.send m), .tau n, .ret n],
          (((⟨s', none, at_⟩ : FState).go n (.marshal m)).go n (.retSend m (some x))).go n .idle, ?_, rfl, rfl, ?_, rfl, rfl⟩
        · simp [frun, fstep, hc, hidle, FState.go, hm]
        · intro g hg
          simp only [FState.go]
          rw [if_neg (by omega), if_neg (by omega), if_neg (by omega)]
          exact hn g (by omega)
      | ok b =>
        rw [hm] at hs
        simp only at hs
        cases hl : s.locked with
        | true => rw [hl] at hs; cases hs
        | false =>
          rw [hl] at hs
          cases hs
          refine ⟨[.call n (.send m), .tau n, .tau n, .tau n, .tau n, .ret n],
            ⟨{ s with queue := s.queue ++ [t.encode b] }, none, fun i => if i = n then .idle else at_ i⟩, ?_, by simp [hl, hc], rfl, ?_, rfl, rfl⟩
          · simp [frun, fstep, hc, hidle, FState.go, hm, hl]
            funext i
            split <;> rfl
          · intro g hg
            simp only
            rw [if_neg (by omega)]
            exact hn g (by omega)
  | endCall =>
    simp only [step, hc, Bool.false_eq_true, if_false] at hs
    cases ha : s.endAsked with
    | true =>
      rw [ha] at hs
      cases hs
      refine ⟨[.call n .endCall, .tau n], ⟨_, none, fun i => if i = n then .close else at_ i⟩, ?_, rfl, rfl, ?_, rfl, rfl⟩
      · simp [frun, fstep, hc, hidle, FState.go, ha]
      · intro g hg
        simp only
        rw [if_neg (by omega)]
        exact hn g (by omega)
    | false =>
      rw [ha] at hs
      cases hs
      refine ⟨[.call n .endCall, .tau n], ⟨_, none, fun i => if i = n then .wait else if i = n then .close else at_ i⟩, ?_, rfl, rfl, ?_, rfl, rfl⟩
      · simp [frun, fstep, hc, hidle, FState.go, ha]
      · intro g hg
        simp only
        rw [if_neg (by omega), if_neg (by omega)]
        exact hn g (by omega)
  | _ => exact hother rfl

/-- C92: conversely, every history in which the calls take place at once comes from one in which they are made of steps: the
same calls, the same other events, the same state. So whatever is possible in the simpler model is possible here. -/
theorem C92_complete (t : Transport) (es : List Event) (s : State) (h : History t es s) :
    ∃ l f, FHistory t l f ∧ f.s = s ∧ calls l = es.filterMap opOf ∧ others l = es.filter fun e => (opOf e).isNone := by
  have key : ∃ l f, FHistory t l f ∧ f.s = s ∧ f.holder = none ∧ (∀ g, es.length ≤ g → f.at_ g = .idle) ∧
      calls l = es.filterMap opOf ∧ others l = es.filter fun e => (opOf e).isNone := by
    induction es using List.reverseRecOn generalizing s with
    | nil =>
      have : init = s := Option.some.inj h
      subst this
      exact ⟨[], finit, rfl, rfl, rfl, fun _ _ => rfl, rfl, rfl⟩
    | append_singleton es e ih =>
      unfold History at h
      obtain ⟨s1, h1, h⟩ := run_split h
      simp only [run] at h
      cases h2 : step t s1 e with
      | none => rw [h2] at h; cases h
      | some s2 =>
        rw [h2] at h
        simp only [Option.bind_some, Option.some.injEq] at h
        subst h
        obtain ⟨l, f, g1, rfl, g3, g4, g5, g6⟩ := ih s1 h1
        obtain ⟨l', f', k1, k2, k3, k4, k5, k6⟩ := complete_step g4 g3 h2
        refine ⟨l ++ l', f', ?_, k2, k3, ?_, ?_, ?_⟩
        · unfold FHistory at g1 ⊢
          rw [frun_append, g1]; exact k1
        · intro g hg
          exact k4 g (by simpa using hg)
        · rw [calls_append, g5, k5, List.filterMap_append]
          cases ho : opOf e <;> simp [ho]
        · rw [others_append, g6, k6, List.filter_append]
          cases ho : opOf e <;> simp [ho]
  obtain ⟨l, f, a, b, _, _, c, d⟩ := key
  exact ⟨l, f, a, b, c, d⟩

theorem fhistory_of {t : Transport} {h : List FEvent} {s : State} {o : Option Nat}
    (hd : (frun t finit h).map (fun f => (f.s, f.holder)) = some (s, o)) : ∃ f, FHistory t h f ∧ f.s = s ∧ f.holder = o := by
  cases hf : frun t finit h with
  | none => rw [hf] at hd; cases hd
  | some f =>
    rw [hf] at hd
    simp only [Option.map_some, Option.some.injEq, Prod.mk.injEq] at hd
    exact ⟨f, hf, hd.1, hd.2⟩

/-- Two goroutines call `Send` at the same time: the first one that called takes the lock last. -/
def exCalls : List FEvent :=
  [.call 1 (.send (exMsg b!"x")), .tau 1, .call 2 (.send (exMsg b!"y")), .tau 2, .tau 2, .tau 2, .other .tick, .other .tau,
   .other (.connect none), .tau 2, .ret 2, .tau 1, .tau 1]

example : ∃ f, FHistory .lfEnded exCalls f ∧ f.s.crashed = false ∧ f.holder = some 1 ∧
    f.s.queue = [b!"<14>1 1970-01-01T00:00:00Z h a 1 - - y\n", b!"<14>1 1970-01-01T00:00:00Z h a 1 - - x\n"] := by
  obtain ⟨f, h1, h2, h3⟩ := fhistory_of (t := .lfEnded) (h := exCalls) (o := some 1)
    (s := ⟨[b!"<14>1 1970-01-01T00:00:00Z h a 1 - - y\n", b!"<14>1 1970-01-01T00:00:00Z h a 1 - - x\n"], [⟨[], false⟩], true, false, [],
      false, false, false, false, .lock false⟩) (by decide +kernel)
  exact ⟨f, h1, by rw [h2], h3, by rw [h2]⟩

/-- Then `End`, which returns when both are written. -/
def exCallsEnd : List FEvent :=
  exCalls ++ [.tau 1, .ret 1] ++ .call 3 .endCall :: ([.tau 3, .other .tau, .other .tau, .other (.write 39 none), .other (.write 39 none),
    .other .tau, .other .tau, .other .tau, .other .seeEnd, .other .tau, .other .tau, .other .tau]) ++ [.ret 3]

example : ∃ f, FHistory .lfEnded exCallsEnd f ∧ f.s.crashed = false ∧
    wire f.s = b!"<14>1 1970-01-01T00:00:00Z h a 1 - - y\n<14>1 1970-01-01T00:00:00Z h a 1 - - x\n" := by
  obtain ⟨f, h1, h2, h3⟩ := fhistory_of (t := .lfEnded) (h := exCallsEnd) (o := none)
    (s := ⟨[], [⟨[b!"<14>1 1970-01-01T00:00:00Z h a 1 - - y\n", b!"<14>1 1970-01-01T00:00:00Z h a 1 - - x\n"], true⟩], true, false, [],
      true, true, false, false, .closeErr⟩) (by decide +kernel)
  exact ⟨f, h1, by rw [h2], by rw [h2]; decide +kernel⟩

end Syslog5424
