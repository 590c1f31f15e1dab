import Verif.Spec.Registry
import Verif.Lemmas.Found
/-! # Property C77: the registry and several goroutines -/
namespace Syslog5424
open Spec Registry

namespace Registry

/-- The names of a map. -/
def names (m : List (Bytes × Nat)) : Names := fun k => (m.find? (·.1 == k)).map (·.2)

theorem names_mem {m : List (Bytes × Nat)} {k : Bytes} {id : Nat} (h : names m k = some id) : (k, id) ∈ m := by
  unfold names at h
  simp only [Option.map_eq_some_iff] at h
  obtain ⟨⟨a, b⟩, h1, h2⟩ := h
  have h3 := List.mem_of_find?_eq_some h1
  have h4 := List.find?_some h1
  simp only [beq_iff_eq] at h4 h2
  subst h4 h2; exact h3

theorem mem_names {m : List (Bytes × Nat)} (hn : (m.map (·.1)).Nodup) {k : Bytes} {id : Nat} (h : (k, id) ∈ m) : names m k = some id := by
  induction m with
  | nil => simp at h
  | cons a r ih =>
    simp only [List.map_cons, List.nodup_cons] at hn
    unfold names
    rw [List.find?_cons]
    rcases List.mem_cons.mp h with rfl | h
    · simp
    · have : (a.1 == k) = false := by
        rw [beq_eq_false_iff_ne]
        rintro rfl
        exact hn.1 (List.mem_map.mpr ⟨_, h, rfl⟩)
      rw [this]
      exact ih hn.2 h

theorem add_nodup (env : Env) (m : List (Bytes × Nat)) (id : Nat) (h : (m.map (·.1)).Nodup) : ((add env m id).map (·.1)).Nodup := by
  unfold add
  split
  · exact h
  · rename_i hn
    rw [List.map_append, List.nodup_append]
    refine ⟨h, by simp, ?_⟩
    intro a ha b hb
    simp only [List.map_cons, List.map_nil, List.mem_singleton] at hb
    subst hb
    rintro rfl
    apply hn
    obtain ⟨x, hx, he⟩ := List.mem_map.mp ha
    rw [List.any_eq_true]
    exact ⟨x, hx, by simp [he]⟩

theorem add_names (env : Env) (m : List (Bytes × Nat)) (id : Nat) : names (add env m id) = (names m).put env id := by
  funext k
  unfold add Names.put
  by_cases hk : k = env.key id
  · rw [if_pos hk]
    split
    · rename_i ha
      rw [List.any_eq_true] at ha
      obtain ⟨x, hx, he⟩ := ha
      have : (m.find? (·.1 == k)).isSome := by rw [List.find?_isSome]; exact ⟨x, hx, by rw [hk]; exact he⟩
      obtain ⟨y, hy⟩ := Option.isSome_iff_exists.mp this
      simp [names, hy]
    · rename_i ha
      have : m.find? (·.1 == k) = none := by
        rw [List.find?_eq_none]
        intro x hx he
        apply ha
        rw [List.any_eq_true]
        exact ⟨x, hx, by rw [← hk]; exact he⟩
      subst hk
      simp [names, List.find?_append, this]
  · rw [if_neg hk]
    split
    · rfl
    · unfold names
      rw [List.find?_append]
      have : ([(env.key id, id)] : List (Bytes × Nat)).find? (·.1 == k) = none := by
        simp [Ne.symm hk]
      rw [this, Option.or_none]

theorem group_nodup (env : Env) (ids : List Nat) (m : List (Bytes × Nat)) (h : (m.map (·.1)).Nodup) : ((ids.foldl (add env) m).map (·.1)).Nodup := by
  induction ids generalizing m with
  | nil => exact h
  | cons a r ih => exact ih _ (add_nodup env m a h)

theorem group_names (env : Env) (ids : List Nat) (m : List (Bytes × Nat)) : names (ids.foldl (add env) m) = ids.foldl (Names.put env) (names m) := by
  induction ids generalizing m with
  | nil => rfl
  | cons a r ih => simp only [List.foldl_cons]; rw [ih, add_names]

theorem oneByOne_snoc {env : Env} {t t' t'' : Names} {l : List (Nat × Call × Ret)} {g : Nat} {c : Call} {r : Ret}
    (h : OneByOne env t l t') (hd : Does env t' c r t'') : OneByOne env t (l ++ [(g, c, r)]) t'' := by
  induction h with
  | nil t => exact .cons hd (.nil _)
  | cons h1 _ ih => exact .cons h1 (ih hd)

/-! ## The invariant -/

/-- What the stack of a goroutine can be, and whether it holds the lock then. -/
inductive Shape (env : Env) (m : List (Bytes × Nat)) : List Frame → Bool → Prop where
  | idle : Shape env m [] false
  | want (c) : Shape env m [.want c] false
  | body (c) (hc : ∀ d, c ≠ .parse d) : Shape env m [.body c] true
  | scan (data rest tried) (hp : (tried ++ rest).Perm (m.map (·.2))) (ht : ∀ id ∈ tried, env.found id data = .done (.ret none)) :
      Shape env m [.scan data rest] true
  | found (data rest tried id) (hp : (tried ++ id :: rest).Perm (m.map (·.2))) (ht : ∀ x ∈ tried, env.found x data = .done (.ret none)) :
      Shape env m [.found data rest (env.found id data)] true
  | nested (c data rest k id) (hf : env.found id data = .call c k) : Shape env m [.want c, .nested data rest k] true

structure Inv (env : Env) (s : State) : Prop where
  shape : ∀ g, Shape env s.sdids (s.stack g) (decide (s.lock = some g))
  nodup : (s.sdids.map (·.1)).Nodup
  legal : OneByOne env (fun _ => none) s.log (names s.sdids)

theorem inv_init (env : Env) : Inv env init := ⟨fun _ => .idle, by simp [init], .nil _⟩

/-- A goroutine that does not hold the lock does not look at the map. -/
theorem shape_other {env : Env} {m m' : List (Bytes × Nat)} {st : List Frame} (h : Shape env m st false) : Shape env m' st false := by
  generalize hb : false = b at h
  cases h
  · exact .idle
  · exact .want _
  all_goals simp at hb

theorem inv_step {env : Env} {s s' : State} {e : Event} (h : Inv env s) (hs : step env s e = some s') : Inv env s' := by
  obtain ⟨hsh, hnd, hl⟩ := h
  obtain ⟨lock, m, stack, log⟩ := s
  simp only at hsh hnd hl
  -- the lock is released by `g`
  have release : ∀ (g : Nat) (m' : List (Bytes × Nat)) (c : Call) (r : Ret), lock = some g → (m'.map (·.1)).Nodup →
      Does env (names m) c r (names m') → Inv env (finish ⟨lock, m', stack, log⟩ g c r []) := by
    intro g m' c r hlk hn hd
    refine ⟨?_, hn, oneByOne_snoc hl hd⟩
    intro x
    simp only [finish, setStack]
    by_cases hx : x = g
    · subst hx; simp only [if_true]; exact .idle
    · simp only [if_neg hx]
      have := hsh x
      rw [hlk] at this
      have hne : decide (some g = some x) = false := by simp [Ne.symm hx]
      rw [hne] at this
      exact shape_other this
  -- `g` goes on, with the same lock
  have move : ∀ (g : Nat) (st : List Frame), Shape env m st (decide (lock = some g)) → Inv env (setStack ⟨lock, m, stack, log⟩ g st) := by
    intro g st hst
    refine ⟨?_, hnd, hl⟩
    intro x
    simp only [setStack]
    by_cases hx : x = g
    · subst hx; simp only [if_true]; exact hst
    · simp only [if_neg hx]; exact hsh x
  have val : ∀ {id}, id ∈ m.map (·.2) → ∃ k, names m k = some id := by
    intro id hid
    obtain ⟨⟨k, x⟩, hx, rfl⟩ := List.mem_map.mp hid
    exact ⟨k, mem_names hnd hx⟩
  have back : ∀ {k id}, names m k = some id → id ∈ m.map (·.2) := by
    intro k id hk
    exact List.mem_map.mpr ⟨_, names_mem hk, rfl⟩
  cases e with
  | call g c =>
    simp only [step] at hs
    have hg := hsh g
    generalize hst : stack g = st at hs hg
    generalize hb : decide (lock = some g) = b at hg
    cases hg <;> simp only [Option.some.injEq, reduceCtorEq] at hs
    subst hs
    exact move g _ (by rw [hb]; exact .want c)
  | acquire g order =>
    simp only [step] at hs
    have hg := hsh g
    generalize hst : stack g = st at hs hg
    generalize hb : decide (lock = some g) = b at hg
    cases hg <;> simp only [reduceCtorEq] at hs
    case want c =>
      cases lock with
      | some x => simp at hs
      | none =>
        have acq : ∀ st, Shape env m st true → Inv env (setStack ⟨some g, m, stack, log⟩ g st) := by
          intro st hshape
          refine ⟨?_, hnd, hl⟩
          intro x
          simp only [setStack]
          by_cases hx : x = g
          · subst hx; simp only [if_true, decide_true]; exact hshape
          · simp only [if_neg hx]
            have hne : decide (some g = some x) = false := by simp [Ne.symm hx]
            rw [hne]
            have := hsh x
            simpa using this
        simp only [Option.isSome_none, Bool.false_eq_true, if_false] at hs
        cases c with
        | parse data =>
          simp only at hs
          split at hs
          · rename_i hp
            simp only [Option.some.injEq] at hs
            subst hs
            exact acq _ (.scan data order [] (by simpa using List.isPerm_iff.mp hp) (by simp))
          · simp at hs
        | register id =>
          simp only [Option.some.injEq] at hs
          subst hs
          exact acq _ (.body _ (by simp))
        | registerGroup ids =>
          simp only [Option.some.injEq] at hs
          subst hs
          exact acq _ (.body _ (by simp))
    case nested c data rest k id hf =>
      have : lock = some g := by simpa using hb
      subst this
      simp at hs
  | tau g =>
    simp only [step] at hs
    have hg := hsh g
    generalize hst : stack g = st at hs hg
    generalize hb : decide (lock = some g) = b at hg
    cases hg
    case idle => simp at hs
    case want c => simp at hs
    case nested => simp at hs
    case body c hc =>
      have hlk : lock = some g := by simpa using hb
      cases c with
      | parse d => exact absurd rfl (hc d)
      | register id =>
        simp only [Option.some.injEq] at hs
        subst hs
        exact release g _ _ _ hlk (add_nodup env m id hnd) (by rw [add_names]; exact .register _ _)
      | registerGroup ids =>
        simp only [Option.some.injEq] at hs
        subst hs
        exact release g _ _ _ hlk (group_nodup env ids m hnd) (by rw [group_names]; exact .registerGroup _ _)
    case scan data rest tried hp ht =>
      have hlk : lock = some g := by simpa using hb
      cases rest with
      | nil =>
        simp only at hs
        have hd : Does env (names m) (.parse data) (.parsed (unknownFound data)) (names m) := by
          refine .unknown (fun k id hk => ht id ?_) rfl
          have := back hk
          rw [List.append_nil] at hp
          exact hp.mem_iff.mpr this
        split at hs
        · simp at hs
        · simp only [Option.some.injEq] at hs
          subst hs
          exact release g m _ _ hlk hnd hd
      | cons id rest =>
        simp only [Option.some.injEq] at hs
        subst hs
        exact move g _ (by rw [hb]; exact .found data rest tried id hp ht)
    case found data rest tried id hp ht =>
      have hlk : lock = some g := by simpa using hb
      have hid : id ∈ m.map (·.2) := hp.mem_iff.mp (by simp)
      obtain ⟨k0, hk0⟩ := val hid
      generalize hf : env.found id data = p at hs
      cases p with
      | call c k =>
        simp only [Option.some.injEq] at hs
        subst hs
        exact move g _ (by rw [hb]; exact .nested c data rest k id hf)
      | done o =>
        cases o with
        | hang => simp at hs
        | panic =>
          simp only [Option.some.injEq] at hs
          subst hs
          exact release g m _ _ hlk hnd (.panics hk0 hf)
        | ret x =>
          cases x with
          | none =>
            simp only [Option.some.injEq] at hs
            subst hs
            refine move g _ ?_
            rw [hb]
            refine .scan data rest (tried ++ [id]) (by simpa using hp) ?_
            intro y hy
            rcases List.mem_append.mp hy with hy | hy
            · exact ht y hy
            · rw [List.mem_singleton.mp hy]; exact hf
          | some sd =>
            simp only [Option.some.injEq] at hs
            subst hs
            exact release g m _ _ hlk hnd (.recognised hk0 hf)

theorem inv_run {env : Env} {s s' : State} {es : List Event} (h : Inv env s) (hs : run env s es = some s') : Inv env s' := by
  induction es generalizing s with
  | nil => simp only [run, Option.some.injEq] at hs; subst hs; exact h
  | cons e r ih =>
    simp only [run] at hs
    cases hst : step env s e with
    | none => rw [hst] at hs; simp at hs
    | some x => rw [hst] at hs; exact ih (inv_step h hst) hs

end Registry

/-- **C77.** Whatever the interleaving, the calls that have returned, in the order in which they returned, have the results of
the same calls made one after the other. -/
theorem C77_one_by_one (env : Env) (es : List Registry.Event) (s : Registry.State) (h : RegHistory env es s) :
    ∃ t, OneByOne env (fun _ => none) s.log t := ⟨_, (Registry.inv_run (Registry.inv_init env) h).legal⟩

/-- The call in progress. -/
def Registry.current : List Registry.Frame → List Registry.Call
  | [.want c] => [c]
  | [.body c] => [c]
  | [.scan d _] => [.parse d]
  | [.found d _ _] => [.parse d]
  | [_, .nested d _ _] => [.parse d]
  | _ => []

theorem Registry.log_step {env : Env} {s s' : Registry.State} {e : Registry.Event} (h : Registry.Inv env s) (hs : Registry.step env s e = some s')
    (g : Nat) :
    ∃ l, s'.log = s.log ++ l ∧
      ((s.log.filter (·.1 = g)).map (·.2.1) ++ Registry.current (s.stack g)) ++ callsOf g [e] =
        (s'.log.filter (·.1 = g)).map (·.2.1) ++ Registry.current (s'.stack g) := by
  obtain ⟨hsh, _, _⟩ := h
  obtain ⟨lock, m, stack, log⟩ := s
  simp only at hsh
  have move : ∀ (x : Nat) (lk : Option Nat) (st : List Registry.Frame) , Registry.current st = Registry.current (stack x) →
      ∃ l, (Registry.setStack ⟨lk, m, stack, log⟩ x st).log = log ++ l ∧
      ((log.filter (·.1 = g)).map (·.2.1) ++ Registry.current (stack g)) ++ [] =
        ((Registry.setStack ⟨lk, m, stack, log⟩ x st).log.filter (·.1 = g)).map (·.2.1) ++
          Registry.current ((Registry.setStack ⟨lk, m, stack, log⟩ x st).stack g) := by
    intro x lk st hc
    refine ⟨[], by simp [Registry.setStack], ?_⟩
    simp only [Registry.setStack, List.append_nil]
    by_cases hx : g = x
    · subst hx; rw [if_pos rfl, hc]
    · rw [if_neg hx]
  have fin : ∀ (x : Nat) (lk : Option Nat) (m' : List (Bytes × Nat)) (c : Registry.Call) (r : Registry.Ret), Registry.current (stack x) = [c] →
      ∃ l, (Registry.finish ⟨lk, m', stack, log⟩ x c r []).log = log ++ l ∧
      ((log.filter (·.1 = g)).map (·.2.1) ++ Registry.current (stack g)) ++ [] =
        ((Registry.finish ⟨lk, m', stack, log⟩ x c r []).log.filter (·.1 = g)).map (·.2.1) ++
          Registry.current ((Registry.finish ⟨lk, m', stack, log⟩ x c r []).stack g) := by
    intro x lk m' c r hc
    refine ⟨[(x, c, r)], rfl, ?_⟩
    simp only [Registry.finish, Registry.setStack, List.append_nil, List.filter_append, List.map_append]
    by_cases hx : g = x
    · subst hx; simp [hc, show Registry.current [] = [] from rfl]
    · simp [hx, Ne.symm hx]
  cases e with
  | call x c =>
    simp only [Registry.step] at hs
    split at hs
    · rename_i hst
      simp only [Option.some.injEq] at hs
      subst hs
      refine ⟨[], by simp [Registry.setStack], ?_⟩
      simp only [Registry.setStack, callsOf]
      by_cases hx : x = g
      · subst hx; simp [hst, Registry.current]
      · simp [hx, Ne.symm hx]
    · simp at hs
  | acquire x order =>
    simp only [callsOf]
    simp only [Registry.step] at hs
    have hg := hsh x
    generalize hst : stack x = st at hs hg
    generalize hb : decide (lock = some x) = b at hg
    cases hg <;> simp only [reduceCtorEq] at hs
    case want c =>
      split at hs
      · simp at hs
      cases c with
      | parse data =>
        simp only at hs
        split at hs
        · simp only [Option.some.injEq] at hs; subst hs; exact move x _ _ (by rw [hst]; rfl)
        · simp at hs
      | register id => simp only [Option.some.injEq] at hs; subst hs; exact move x _ _ (by rw [hst]; rfl)
      | registerGroup ids => simp only [Option.some.injEq] at hs; subst hs; exact move x _ _ (by rw [hst]; rfl)
    case nested c data rest k id hf =>
      have : lock = some x := by simpa using hb
      subst this
      simp at hs
  | tau x =>
    simp only [callsOf]
    simp only [Registry.step] at hs
    have hg := hsh x
    generalize hst : stack x = st at hs hg
    generalize hb : decide (lock = some x) = b at hg
    cases hg
    case idle => simp at hs
    case want c => simp at hs
    case nested => simp at hs
    case body c hc =>
      cases c with
      | parse d => exact absurd rfl (hc d)
      | register id => simp only [Option.some.injEq] at hs; subst hs; exact fin x _ _ _ _ (by rw [hst]; rfl)
      | registerGroup ids => simp only [Option.some.injEq] at hs; subst hs; exact fin x _ _ _ _ (by rw [hst]; rfl)
    case scan data rest tried hp ht =>
      cases rest with
      | nil =>
        simp only at hs
        split at hs
        · simp at hs
        · simp only [Option.some.injEq] at hs; subst hs; exact fin x _ _ _ _ (by rw [hst]; rfl)
      | cons id rest => simp only [Option.some.injEq] at hs; subst hs; exact move x _ _ (by rw [hst]; rfl)
    case found data rest tried id hp ht =>
      generalize hf : env.found id data = p at hs hst
      cases p with
      | call c k => simp only [Option.some.injEq] at hs; subst hs; exact move x _ _ (by rw [hst]; rfl)
      | done o =>
        cases o with
        | hang => simp at hs
        | panic => simp only [Option.some.injEq] at hs; subst hs; exact fin x _ _ _ _ (by rw [hst]; rfl)
        | ret y =>
          cases y with
          | none => simp only [Option.some.injEq] at hs; subst hs; exact move x _ _ (by rw [hst]; rfl)
          | some sd => simp only [Option.some.injEq] at hs; subst hs; exact fin x _ _ _ _ (by rw [hst]; rfl)

theorem callsOf_append (g : Nat) (a b : List Registry.Event) : callsOf g (a ++ b) = callsOf g a ++ callsOf g b := by
  induction a with
  | nil => rfl
  | cons e r ih =>
    cases e <;> simp only [List.cons_append, callsOf, ih]
    split <;> simp

theorem Registry.log_run {env : Env} {s s' : Registry.State} {es : List Registry.Event} (h : Registry.Inv env s) (hs : Registry.run env s es = some s')
    (g : Nat) :
    s.log <+: s'.log ∧
      ((s.log.filter (·.1 = g)).map (·.2.1) ++ Registry.current (s.stack g)) ++ callsOf g es =
        (s'.log.filter (·.1 = g)).map (·.2.1) ++ Registry.current (s'.stack g) := by
  induction es generalizing s with
  | nil =>
    simp only [Registry.run, Option.some.injEq] at hs
    subst hs
    exact ⟨List.prefix_refl _, by simp [callsOf]⟩
  | cons e r ih =>
    simp only [Registry.run] at hs
    cases hst : Registry.step env s e with
    | none => rw [hst] at hs; simp at hs
    | some x =>
      rw [hst] at hs
      obtain ⟨l, h1, h2⟩ := Registry.log_step h hst g
      obtain ⟨h3, h4⟩ := ih (Registry.inv_step h hst) hs
      refine ⟨List.IsPrefix.trans ⟨l, h1.symm⟩ h3, ?_⟩
      have : callsOf g (e :: r) = callsOf g [e] ++ callsOf g r := callsOf_append g [e] r
      rw [this, ← List.append_assoc, h2, h4]

/-- **C77.** A call that has returned stays returned: later calls come after it. -/
theorem C77_real_time (env : Env) (es es' : List Registry.Event) (s s' : Registry.State) (h : RegHistory env es s)
    (h' : Registry.run env s es' = some s') : s.log <+: s'.log :=
  (Registry.log_run (Registry.inv_run (Registry.inv_init env) h) h' 0).1

/-- **C77.** The calls of a goroutine return in the order in which it makes them, each once, but for the one in progress. -/
theorem C77_program_order (env : Env) (es : List Registry.Event) (s : Registry.State) (h : RegHistory env es s) (g : Nat) :
    ∃ rest, callsOf g es = (s.log.filter (·.1 = g)).map (·.2.1) ++ rest ∧ rest.length ≤ 1 ∧ (s.stack g = [] → rest = []) := by
  have := (Registry.log_run (Registry.inv_init env) h g).2
  refine ⟨Registry.current (s.stack g), by simpa [Registry.init, Registry.current] using this, ?_, ?_⟩
  · unfold Registry.current
    split <;> simp
  · intro e; rw [e]; rfl

/-! ## The first registration wins -/

theorem put_keeps {env : Env} {t : Names} {k : Bytes} {id : Nat} (h : t k = some id) (x : Nat) : t.put env x k = some id := by
  unfold Names.put
  split
  · rw [h]; rfl
  · exact h

theorem group_keeps {env : Env} {k : Bytes} {id : Nat} (l : List Nat) : ∀ {t : Names}, t k = some id → l.foldl (Names.put env) t k = some id := by
  induction l with
  | nil => intro t h; exact h
  | cons a r ih => intro t h; exact ih (put_keeps h a)

theorem does_keeps {env : Env} {t t' : Names} {c : Registry.Call} {r : Registry.Ret} (h : Does env t c r t') {k : Bytes} {id : Nat} (hk : t k = some id) :
    t' k = some id := by
  cases h
  · exact put_keeps hk _
  · exact group_keeps _ hk
  all_goals exact hk

theorem oneByOne_keeps {env : Env} {t t' : Names} {l : List (Nat × Registry.Call × Registry.Ret)} (h : OneByOne env t l t') {k : Bytes} {id : Nat}
    (hk : t k = some id) : t' k = some id := by
  induction h with
  | nil => exact hk
  | cons hd _ ih => exact ih (does_keeps hd hk)

theorem does_fresh {env : Env} {t t' : Names} {c : Registry.Call} {r : Registry.Ret} (h : Does env t c r t') {k : Bytes} (hk : t k = none)
    (hc : ¬ Registers env k c) : t' k = none := by
  have one : ∀ (t : Names) (x : Nat), t k = none → env.key x ≠ k → t.put env x k = none := by
    intro t x ht hx
    unfold Names.put
    rw [if_neg (Ne.symm hx)]; exact ht
  cases h
  · exact one _ _ hk hc
  · rename_i ids
    have : ∀ (l : List Nat) (t : Names), t k = none → (∀ x ∈ l, env.key x ≠ k) → l.foldl (Names.put env) t k = none := by
      intro l
      induction l with
      | nil => intro t h _; exact h
      | cons a r ih => intro t h hl; exact ih _ (one t a h (hl a (by simp))) (fun x hx => hl x (by simp [hx]))
    exact this ids t hk (fun x hx e => hc ⟨x, hx, e⟩)
  all_goals exact hk

theorem oneByOne_fresh {env : Env} {t t' : Names} {l : List (Nat × Registry.Call × Registry.Ret)} (h : OneByOne env t l t') {k : Bytes}
    (hk : t k = none) (hl : ∀ x ∈ l, ¬ Registers env k x.2.1) : t' k = none := by
  induction h with
  | nil => exact hk
  | cons hd _ ih => exact ih (does_fresh hd hk (hl _ List.mem_cons_self)) (fun x hx => hl x (by simp [hx]))

theorem oneByOne_split {env : Env} {t t' : Names} {a b : List (Nat × Registry.Call × Registry.Ret)} (h : OneByOne env t (a ++ b) t') :
    ∃ u, OneByOne env t a u ∧ OneByOne env u b t' := by
  induction a generalizing t with
  | nil => exact ⟨t, .nil _, h⟩
  | cons x r ih =>
    cases h with
    | cons h1 h2 =>
      obtain ⟨u, g1, g2⟩ := ih h2
      exact ⟨u, .cons h1 g1, g2⟩

/-- The keys of a table are the names of what it holds. -/
theorem oneByOne_keys {env : Env} {t t' : Names} {l : List (Nat × Registry.Call × Registry.Ret)} (h : OneByOne env t l t')
    (ht : ∀ k id, t k = some id → env.key id = k) : ∀ k id, t' k = some id → env.key id = k := by
  have one : ∀ (t : Names) (x : Nat), (∀ k id, t k = some id → env.key id = k) → ∀ k id, t.put env x k = some id → env.key id = k := by
    intro t x ht k id h
    unfold Names.put at h
    split at h
    · rename_i hk
      cases hv : t k with
      | none => rw [hv] at h; simp at h; subst h; exact hk.symm
      | some y => rw [hv] at h; simp at h; subst h; exact ht k y hv
    · exact ht k id h
  induction h with
  | nil => exact ht
  | cons hd _ ih =>
    apply ih
    cases hd
    · exact one _ _ ht
    · have : ∀ (l : List Nat) (t : Names), (∀ k id, t k = some id → env.key id = k) → ∀ k id, l.foldl (Names.put env) t k = some id → env.key id = k := by
        intro l
        induction l with
        | nil => intro t h; exact h
        | cons a r ih => intro t h; exact ih _ (one t a h)
      exact this _ _ ht
    all_goals exact ht

/-- **C77.** Among all the goroutines, the first registration of a name to return wins for ever: data that its SDID recognises, and
that no SDID of another name does, is decoded by it, whatever is registered under that name before or after by others. -/
theorem C77_first_wins (env : Env) (es : List Registry.Event) (s : Registry.State) (h : RegHistory env es s)
    (l1 l2 l3 : List (Nat × Registry.Call × Registry.Ret)) (g g' : Nat) (id : Nat) (r r' : Registry.Ret) (data : Slice) (sd : SD)
    (hlog : s.log = l1 ++ (g, .register id, r) :: (l2 ++ (g', .parse data, r') :: l3))
    (hfirst : ∀ x ∈ l1, ¬ Registers env (env.key id) x.2.1)
    (hyes : env.found id data = .done (.ret (some sd)))
    (hno : ∀ x, env.key x ≠ env.key id → env.found x data = .done (.ret none)) :
    r' = .parsed (.ret (some sd)) := by
  obtain ⟨t, ht⟩ := C77_one_by_one env es s h
  rw [hlog] at ht
  obtain ⟨u1, h1, h2⟩ := oneByOne_split ht
  have hf : u1 (env.key id) = none := oneByOne_fresh h1 rfl hfirst
  have hkeys1 := oneByOne_keys h1 (by simp)
  cases h2 with
  | @cons _ u2 _ _ _ _ _ hd h3 =>
    have hkeys2 : ∀ k id, u2 k = some id → env.key id = k := by
      have : OneByOne env u1 [(g, .register id, r)] u2 := .cons hd (.nil _)
      exact oneByOne_keys this hkeys1
    cases hd
    obtain ⟨u3, h4, h5⟩ := oneByOne_split h3
    have hkeys3 := oneByOne_keys h4 hkeys2
    have hreg : u3 (env.key id) = some id := by
      apply oneByOne_keeps h4
      unfold Names.put
      rw [if_pos rfl, hf]; rfl
    cases h5 with
    | cons hd _ =>
      have only : ∀ {k x}, u3 k = some x → x = id ∨ env.found x data = .done (.ret none) := by
        intro k x hx
        by_cases hk : env.key x = env.key id
        · left
          have := hkeys3 k x hx
          rw [← this, hk, hreg] at hx
          exact (Option.some.inj hx).symm
        · right; exact hno x hk
      cases hd with
      | recognised hk ha =>
        rcases only hk with rfl | hn
        · rw [hyes] at ha
          simp only [Registry.Prog.done.injEq, Out.ret.injEq, Option.some.injEq] at ha
          rw [ha]
        · rw [hn] at ha; simp at ha
      | unknown hn _ =>
        have := hn _ _ hreg
        rw [hyes] at this; simp at this
      | panics hk ha =>
        rcases only hk with rfl | hn
        · rw [hyes] at ha; simp at ha
        · rw [hn] at ha; simp at ha

/-! ## Every call returns, when `Found` does not call the package -/

theorem unknownFound_ends (data : Slice) : unknownFound data ≠ .hang := by
  by_cases h : data.vis = []
  · obtain ⟨v, sp⟩ := data
    simp only at h
    subst h
    unfold unknownFound
    rw [openElement_nil]
    intro e; cases e
  · obtain ⟨r, hr⟩ := unknownFound_total data h
    rw [hr]; intro e; cases e

/-- The holder of the lock can end its call. -/
theorem holder_ends {env : Env} (hp : LeafSDIDs env) {s : Registry.State} (h : Registry.Inv env s) {g : Nat} (hl : s.lock = some g) :
    ∃ es s', (∀ e ∈ es, ∃ x, e = .tau x) ∧ Registry.run env s es = some s' ∧ s'.lock = none ∧ s'.stack g = [] ∧
      ∀ x, x ≠ g → s'.stack x = s.stack x := by
  -- one step that ends it
  have fin : ∀ (s : Registry.State) (m' : List (Bytes × Nat)) (c : Registry.Call) (r : Registry.Ret) (s1 : Registry.State),
      s1 = Registry.finish { s with sdids := m' } g c r [] → Registry.step env s (.tau g) = some s1 →
      ∃ es s', (∀ e ∈ es, ∃ x, e = .tau x) ∧ Registry.run env s es = some s' ∧ s'.lock = none ∧ s'.stack g = [] ∧
        ∀ x, x ≠ g → s'.stack x = s.stack x := by
    intro s m' c r s1 h1 h2
    refine ⟨[.tau g], s1, by simp, by simp [Registry.run, h2], ?_, ?_, ?_⟩
    · rw [h1]; rfl
    · rw [h1]; simp [Registry.finish, Registry.setStack]
    · intro x hx; rw [h1]; simp [Registry.finish, Registry.setStack, hx]
  have scan : ∀ (rest : List Nat) (s : Registry.State) (data : Slice), s.stack g = [.scan data rest] →
      ∃ es s', (∀ e ∈ es, ∃ x, e = .tau x) ∧ Registry.run env s es = some s' ∧ s'.lock = none ∧ s'.stack g = [] ∧
        ∀ x, x ≠ g → s'.stack x = s.stack x := by
    intro rest
    induction rest with
    | nil =>
      intro s data hst
      refine fin s s.sdids (.parse data) (.parsed (unknownFound data)) _ rfl ?_
      have := unknownFound_ends data
      simp only [Registry.step, hst]
    | cons id rest ih =>
      intro s data hst
      obtain ⟨o, ho, hne⟩ := hp id data
      have h1 : Registry.step env s (.tau g) = some (Registry.setStack s g [.found data rest (.done o)]) := by
        simp only [Registry.step, hst, ho]
      have cont : (∃ es s', (∀ e ∈ es, ∃ x, e = .tau x) ∧ Registry.run env (Registry.setStack s g [.found data rest (.done o)]) es = some s' ∧
          s'.lock = none ∧ s'.stack g = [] ∧ ∀ x, x ≠ g → s'.stack x = (Registry.setStack s g [.found data rest (.done o)]).stack x) →
          ∃ es s', (∀ e ∈ es, ∃ x, e = .tau x) ∧ Registry.run env s es = some s' ∧ s'.lock = none ∧ s'.stack g = [] ∧
            ∀ x, x ≠ g → s'.stack x = s.stack x := by
        rintro ⟨es, s', a1, a2, a3, a4, a5⟩
        refine ⟨.tau g :: es, s', ?_, by simp [Registry.run, h1, a2], a3, a4, ?_⟩
        · intro e he
          rcases List.mem_cons.mp he with rfl | he
          · exact ⟨g, rfl⟩
          · exact a1 e he
        · intro x hx; rw [a5 x hx]; simp [Registry.setStack, hx]
      apply cont
      cases o with
      | hang => exact absurd rfl hne
      | panic =>
        refine fin _ s.sdids (.parse data) (.parsed .panic) _ rfl ?_
        simp [Registry.step, Registry.setStack]
      | ret y =>
        cases y with
        | some sd =>
          refine fin _ s.sdids (.parse data) (.parsed (.ret (some sd))) _ rfl ?_
          simp [Registry.step, Registry.setStack]
        | none =>
          obtain ⟨es, s', a1, a2, a3, a4, a5⟩ := ih (Registry.setStack (Registry.setStack s g [.found data rest (.done (.ret none))]) g [.scan data rest]) data
            (by simp [Registry.setStack])
          refine ⟨.tau g :: es, s', ?_, ?_, a3, a4, ?_⟩
          · intro e he
            rcases List.mem_cons.mp he with rfl | he
            · exact ⟨g, rfl⟩
            · exact a1 e he
          · rw [Registry.run]
            have : Registry.step env (Registry.setStack s g [.found data rest (.done (.ret none))]) (.tau g) =
                some (Registry.setStack (Registry.setStack s g [.found data rest (.done (.ret none))]) g [.scan data rest]) := by
              simp [Registry.step, Registry.setStack]
            rw [this]; exact a2
          · intro x hx; rw [a5 x hx]; simp [Registry.setStack, hx]
  have hsh := h.shape g
  generalize hst : s.stack g = st at hsh
  rw [hl] at hsh
  simp only [decide_true] at hsh
  generalize hb : true = b at hsh
  cases hsh
  case idle => simp at hb
  case want => simp at hb
  case body c hc =>
    cases c with
    | parse d => exact absurd rfl (hc d)
    | register id => exact fin s (Registry.add env s.sdids id) (.register id) (.registered id) _ rfl (by simp only [Registry.step, hst])
    | registerGroup ids => exact fin s (ids.foldl (Registry.add env) s.sdids) (.registerGroup ids) .grouped _ rfl (by simp only [Registry.step, hst])
  case scan data rest tried _ _ => exact scan rest s data hst
  case found data rest tried id _ _ =>
    obtain ⟨o, ho, hne⟩ := hp id data
    rw [ho] at hst
    cases o with
    | hang => exact absurd rfl hne
    | panic => exact fin s s.sdids (.parse data) (.parsed .panic) _ rfl (by simp only [Registry.step, hst])
    | ret y =>
      cases y with
      | some sd => exact fin s s.sdids (.parse data) (.parsed (.ret (some sd))) _ rfl (by simp only [Registry.step, hst])
      | none =>
        obtain ⟨es, s', a1, a2, a3, a4, a5⟩ := scan rest (Registry.setStack s g [.scan data rest]) data (by simp [Registry.setStack])
        refine ⟨.tau g :: es, s', ?_, ?_, a3, a4, ?_⟩
        · intro e he
          rcases List.mem_cons.mp he with rfl | he
          · exact ⟨g, rfl⟩
          · exact a1 e he
        · rw [Registry.run]
          have : Registry.step env s (.tau g) = some (Registry.setStack s g [.scan data rest]) := by simp only [Registry.step, hst]
          rw [this]; exact a2
        · intro x hx; rw [a5 x hx]; simp [Registry.setStack, hx]
  case nested c data rest k id hf =>
    obtain ⟨o, ho, _⟩ := hp id data
    rw [hf] at ho; cases ho

theorem reg_run_append {env : Env} {a b c : Registry.State} {es es' : List Registry.Event} (h : Registry.run env a es = some b)
    (h' : Registry.run env b es' = some c) : Registry.run env a (es ++ es') = some c := by
  induction es generalizing a with
  | nil => simp only [Registry.run, Option.some.injEq] at h; subst h; exact h'
  | cons e r ih =>
    simp only [List.cons_append, Registry.run] at h ⊢
    cases hst : Registry.step env a e with
    | none => rw [hst] at h; simp at h
    | some x => rw [hst] at h; exact ih h

/-- **C77.** When no `Found` calls the package, every call can return, at any time, whatever the others are doing and
without waiting for a new call: once the holder of the lock has finished, which it can do alone. A `Found` that panics
does not block the others. -/
theorem C77_returns_partial (env : Env) (hp : LeafSDIDs env) (es : List Registry.Event) (s : Registry.State) (h : RegHistory env es s) (g : Nat) :
    ∃ es' s', (∀ e ∈ es', ∀ x c, e ≠ .call x c) ∧ Registry.run env s es' = some s' ∧ s'.stack g = [] := by
  have hi := Registry.inv_run (Registry.inv_init env) h
  -- somebody holds the lock, or not
  have free : ∃ es1 s1, (∀ e ∈ es1, ∀ x c, e ≠ .call x c) ∧ Registry.run env s es1 = some s1 ∧ s1.lock = none := by
    cases hl : s.lock with
    | none => exact ⟨[], s, by simp, rfl, hl⟩
    | some x =>
      obtain ⟨es1, s1, a1, a2, a3, _, _⟩ := holder_ends hp hi hl
      exact ⟨es1, s1, fun e he y c => by obtain ⟨z, rfl⟩ := a1 e he; simp, a2, a3⟩
  obtain ⟨es1, s1, b1, b2, b3⟩ := free
  have hi1 := Registry.inv_run hi b2
  have hsh := hi1.shape g
  rw [b3] at hsh
  have : decide (none = some g) = false := by simp
  rw [this] at hsh
  generalize hst : s1.stack g = st at hsh
  generalize hb : false = b at hsh
  cases hsh
  case idle => exact ⟨es1, s1, b1, b2, hst⟩
  case want c =>
    have acq : ∃ order s2, Registry.step env s1 (.acquire g order) = some s2 ∧ s2.lock = some g := by
      cases c with
      | parse data => exact ⟨s1.sdids.map (·.2), _, by
          simp only [Registry.step, hst, b3, Option.isSome_none, Bool.false_eq_true, if_false]
          rw [if_pos (List.isPerm_iff.mpr (List.Perm.refl _))], rfl⟩
      | register id => exact ⟨[], _, by simp only [Registry.step, hst, b3, Option.isSome_none, Bool.false_eq_true, if_false]; rfl, rfl⟩
      | registerGroup ids => exact ⟨[], _, by simp only [Registry.step, hst, b3, Option.isSome_none, Bool.false_eq_true, if_false]; rfl, rfl⟩
    obtain ⟨order, s2, c1, c2⟩ := acq
    have hi2 := Registry.inv_step hi1 c1
    obtain ⟨es3, s3, d1, d2, _, d4, _⟩ := holder_ends hp hi2 c2
    refine ⟨es1 ++ .acquire g order :: es3, s3, ?_, reg_run_append b2 (by rw [Registry.run, c1]; exact d2), d4⟩
    intro e he x c
    rcases List.mem_append.mp he with he | he
    · exact b1 e he x c
    · rcases List.mem_cons.mp he with rfl | he
      · simp
      · obtain ⟨z, rfl⟩ := d1 e he; simp
  all_goals simp at hb

/-- **C77**: and a goroutine that waits for a free lock is never refused it: the lock is free whenever no call has it. -/
theorem C77_lock_free (env : Env) (es : List Registry.Event) (s : Registry.State) (h : RegHistory env es s) (g : Nat) (hl : s.lock = some g) :
    s.stack g ≠ [] := by
  have := (Registry.inv_run (Registry.inv_init env) h).shape g
  intro e
  rw [hl, e] at this
  simp only [decide_true] at this
  generalize hb : true = b at this
  generalize hs : ([] : List Registry.Frame) = st at this
  cases this <;> simp at hb hs

/-! ## A `Found` that calls the package -/

/-- The state in which `g` waits for the lock that it holds. -/
theorem stuck_forever {env : Env} {s s' : Registry.State} (h : Registry.Inv env s) {g : Nat} (hl : s.lock = some g) {c data rest k}
    (hst : s.stack g = [.want c, .nested data rest k]) {es : List Registry.Event} (hr : Registry.run env s es = some s') :
    s'.log = s.log ∧ s'.lock = some g ∧ s'.stack g = s.stack g := by
  induction es generalizing s with
  | nil => simp only [Registry.run, Option.some.injEq] at hr; subst hr; exact ⟨rfl, hl, rfl⟩
  | cons e r ih =>
    simp only [Registry.run] at hr
    cases hs : Registry.step env s e with
    | none => rw [hs] at hr; simp at hr
    | some x =>
      rw [hs] at hr
      have key : x.log = s.log ∧ x.lock = some g ∧ x.stack g = s.stack g := by
        cases e with
        | call y c' =>
          simp only [Registry.step] at hs
          split at hs
          · rename_i hy
            simp only [Option.some.injEq] at hs
            subst hs
            refine ⟨rfl, hl, ?_⟩
            have : g ≠ y := by rintro rfl; rw [hst] at hy; simp at hy
            simp [Registry.setStack, this]
          · simp at hs
        | acquire y order =>
          simp only [Registry.step] at hs
          split at hs
          · simp [hl] at hs
          · simp at hs
        | tau y =>
          have hy : y ≠ g ∨ y = g := by omega
          rcases hy with hy | rfl
          · have hsh := h.shape y
            rw [hl] at hsh
            have hd : decide (some g = some y) = false := by simp [Ne.symm hy]
            rw [hd] at hsh
            simp only [Registry.step] at hs
            generalize hq : s.stack y = q at hsh hs
            generalize hb : false = b at hsh
            cases hsh
            case idle => simp at hs
            case want => simp at hs
            all_goals simp at hb
          · simp [Registry.step, hst] at hs
      obtain ⟨k1, k2, k3⟩ := ih (Registry.inv_step h hs) key.2.1 (by rw [key.2.2]; exact hst) hr
      exact ⟨k1.trans key.1, k2, k3.trans key.2.2⟩

/-- C77 is violated when the `Found` of a registered SDID calls `Parse`, `Register` or `RegisterGroup`, for instance to decode
a part of its data: one `Parse` of such data, and no call of the package by any goroutine returns any more. -/
theorem C77_reentrant_violated (env : Env) (id : Nat) (data : Slice) (c : Registry.Call) (k : Registry.Ret → Registry.Prog)
    (hf : env.found id data = .call c k) :
    ∃ es s, RegHistory env es s ∧ callsOf 0 es = [.register id, .parse data] ∧ s.log = [(0, .register id, .registered id)] ∧
      ∀ es' s', Registry.run env s es' = some s' → s'.log = s.log := by
  refine ⟨[.call 0 (.register id), .acquire 0 [], .tau 0, .call 0 (.parse data), .acquire 0 [id], .tau 0, .tau 0],
    ⟨some 0, [(env.key id, id)], fun x => if x = 0 then [.want c, .nested data [] k] else [], [(0, .register id, .registered id)]⟩,
    ?_, rfl, rfl, ?_⟩
  · have e1 : ([id] : List Nat).isPerm [id] = true := List.isPerm_iff.mpr (List.Perm.refl _)
    simp only [RegHistory, Registry.run, Registry.step, Registry.init, Registry.setStack, Registry.finish, Registry.add, Option.bind_some,
      Option.isSome_none, if_true, List.any_nil, Bool.false_eq_true, if_false, List.nil_append, List.map_cons, List.map_nil, e1, hf,
      Option.some.injEq, Registry.State.mk.injEq, true_and, and_true]
    funext x
    by_cases hx : x = 0 <;> simp [hx]
  · intro es' s' hr
    refine (stuck_forever ⟨?_, by simp, ?_⟩ rfl (by rfl) hr).1
    · intro g
      by_cases hg : g = 0
      · subst hg; exact .nested c data [] k id hf
      · have hd : decide (some 0 = some g) = false := by simp [Ne.symm hg]
        rw [hd]; simp only [if_neg hg]; exact .idle
    · have : Registry.names [(env.key id, id)] = Names.put env (fun _ => none) id := by
        funext x
        by_cases hx : x = env.key id
        · simp [Registry.names, Names.put, hx]
        · simp [Registry.names, Names.put, hx, Ne.symm hx]
      rw [this]
      exact .cons (.register _ id) (.nil _)

/-! ## The SDIDs of the package -/

theorem tqFound_ends (data : Slice) : tqFound data ≠ .hang := by
  rcases openElement_cases data with ⟨_, ho⟩ | ⟨_, _, ho⟩ | ⟨inner, hv, ho⟩
  · unfold tqFound; rw [ho]; intro e; cases e
  · unfold tqFound; rw [ho]; intro e; cases e
  · obtain ⟨v, sp⟩ := data
    simp only at hv
    subst hv
    rw [tqFound_bracket]
    split
    · intro e; cases e
    split
    · split
      · intro e; cases e
      · obtain ⟨r, hr⟩ := tqLoop_total (inner.length - 11 + 1) ⟨false, false, none⟩ (inner.drop 11) (by simp)
        rw [hr]
        cases r with
        | none => intro e; cases e
        | some t => simp only; split <;> (intro e; cases e)
    · intro e; cases e

theorem genericFound_ends (header : Bytes) (data : Slice) : genericFound header data ≠ .hang := by
  rcases openElement_cases data with ⟨_, ho⟩ | ⟨_, _, ho⟩ | ⟨inner, hv, ho⟩
  · unfold genericFound; rw [ho]; intro e; cases e
  · unfold genericFound; rw [ho]; intro e; cases e
  · unfold genericFound
    rw [ho]
    simp only [Out.ret_bind, sub_zero_cap]
    split
    · simp only [Out.ret_bind]
      split
      · intro e; cases e
      · unfold Slice.from_
        split
        · simp only [Out.ret_bind]; split <;> (intro e; cases e)
        · intro e; cases e
    · intro e; cases e

/-- A program that only registers SDIDs of the package. -/
def Registry.packageEnv (l : Nat → SDID) : Registry.Env := ⟨fun i => (l i).key, fun i data => .done ((l i).found data)⟩

/-- **C77.** With the SDIDs of the package, `timequality.SDID` and those of `GenericSDID`, every call can return. -/
theorem C77_package (l : Nat → SDID) (hl : ∀ i, l i = tqSDID ∨ ∃ h, l i = genericSDID h) (es : List Registry.Event) (s : Registry.State)
    (h : RegHistory (Registry.packageEnv l) es s) (g : Nat) :
    ∃ es' s', (∀ e ∈ es', ∀ x c, e ≠ .call x c) ∧ Registry.run (Registry.packageEnv l) s es' = some s' ∧ s'.stack g = [] := by
  refine C77_returns_partial _ ?_ es s h g
  intro id data
  refine ⟨_, rfl, ?_⟩
  rcases hl id with e | ⟨x, e⟩ <;> rw [e]
  · exact tqFound_ends data
  · exact genericFound_ends x data

/-! Two goroutines register different SDIDs under the same name at the same time; the one that gets the lock first wins, and a third
goroutine's `Parse` is answered by it. -/

/-- Both SDIDs are called `x@1`; each recognises everything, with its own answer. -/
def exRegEnv : Registry.Env := ⟨fun _ => b!"x@1", fun i _ => .done (.ret (some (.unknown b!"x@1" [(b!"k", if i = 0 then b!"0" else b!"1")])))⟩

def exRegEvents : List Registry.Event :=
  [.call 1 (.register 1), .call 0 (.register 0), .acquire 0 [], .call 2 (.parse (.exact b!"[x@1 k=\"v\"]")), .tau 0,
   .acquire 1 [], .tau 1, .acquire 2 [0], .tau 2, .tau 2]

example : ∃ s, RegHistory exRegEnv exRegEvents s ∧ s.log = [(0, .register 0, .registered 0), (1, .register 1, .registered 1),
    (2, .parse (.exact b!"[x@1 k=\"v\"]"), .parsed (.ret (some (.unknown b!"x@1" [(b!"k", b!"0")]))))] :=
  ⟨_, rfl, rfl⟩

/-- The hypotheses of `C77_first_wins` are met by this history. -/
example : ∀ s, RegHistory exRegEnv exRegEvents s → ∀ r l, s.log = [] ++ (0, .register 0, .registered 0) :: ([(1, .register 1, .registered 1)] ++
    (2, .parse (.exact b!"[x@1 k=\"v\"]"), r) :: l) → r = .parsed (.ret (some (.unknown b!"x@1" [(b!"k", b!"0")]))) :=
  fun s h r l hl => C77_first_wins exRegEnv exRegEvents s h [] _ l 0 2 0 _ r _ _ hl (by simp) rfl (by intro x hx; exact absurd rfl hx)

end Syslog5424
