import Verif.Props.Syslog
import Verif.Spec.SyslogRace
/-! # C103: a `Syslog` shared by several goroutines, and data races -/
namespace Syslog5424
open Spec Shared

namespace Shared

/-! ## Executions -/

theorem run_append (st : State) (l l' : List Event) : run st (l ++ l') = (run st l).bind (fun x => run x l') := by
  induction l generalizing st with
  | nil => rfl
  | cons e r ih =>
    simp only [List.cons_append, run]
    cases h : apply st e with
    | none => rfl
    | some x => exact ih x

theorem run_take {st f : State} {evs : List Event} (h : run st evs = some f) (i : Nat) :
    ∃ x, run st (evs.take i) = some x := by
  rw [← List.take_append_drop i evs, run_append] at h
  cases hx : run st (evs.take i) with
  | none => rw [hx] at h; simp at h
  | some x => exact ⟨x, rfl⟩

theorem take_next {evs : List Event} {i : Nat} {e : Event} (h : evs[i]? = some e) : evs.take (i + 1) = evs.take i ++ [e] := by
  rw [List.take_add_one, h]; rfl

theorem run_next {st x y : State} {evs : List Event} {i : Nat} {e : Event} (h : evs[i]? = some e)
    (hx : run st (evs.take i) = some x) (hy : run st (evs.take (i + 1)) = some y) : apply x e = some y := by
  rw [take_next h, run_append, hx] at hy
  simp only [Option.bind_some, run] at hy
  cases ha : apply x e with
  | none => rw [ha] at hy; simp at hy
  | some z => rw [ha] at hy; exact hy

/-- The goroutine that runs `o` is at `a`. -/
def Inside : Op → At → Prop
  | .channel sev, a => a = .chanTest sev ∨ a = .chanAlloc sev ∨ (∃ n, a = .chanHost sev n) ∨ (∃ n h, a = .chanPid sev n h) ∨
      a = .chanRead sev ∨ (∃ c, a = .done (.channel c)) ∨ a = .crash
  | .testMode, a => a = .testHost ∨ a = .testPid ∨ a = .done .unit
  | .sub name, a => a = .subHost name ∨ (∃ h, a = .subPid name h) ∨ (∃ s n, a = .subLoop s n) ∨ (∃ s n h, a = .subLoopPid s n h) ∨
      (∃ s, a = .done (.sub s)) ∨ a = .crash
  | .log, a => a = .log ∨ a = .done .unit
  | .setNow, a => a = .setNow ∨ a = .done .unit

/-- The goroutine is filling the table of the shared object. -/
def Building : At → Prop
  | .chanAlloc _ => True
  | .chanHost _ _ => True
  | .chanPid _ _ _ => True
  | _ => False

theorem inside_start (o : Op) : Inside o (start o) := by
  cases o <;> simp [Inside, start]

theorem inside_idle (o : Op) : ¬ Inside o .idle := by
  cases o <;> simp [Inside]

theorem inside_step {o : Op} {a : At} (s : Syslog) (h : Inside o a) : Inside o (step s a).2.1 := by
  cases o with
  | channel sev =>
    rcases h with rfl | rfl | ⟨n, rfl⟩ | ⟨n, x, rfl⟩ | rfl | ⟨c, rfl⟩ | rfl
    · by_cases hc : s.channels = none <;> simp [step, Inside, hc]
    · simp [step, Inside]
    · by_cases hc : (n : Int) ≤ s.minSev <;> simp [step, Inside, hc]
    · cases hc : s.channels with
      | none => simp [step, Inside, hc]
      | some l => by_cases hn : n < l.length <;> simp [step, Inside, hc, hn]
    · cases hc : s.channels with
      | none => simp [step, Inside, hc]
      | some l =>
        by_cases hn : 0 ≤ Priority.severity sev
        · cases hl : l[(Priority.severity sev).toNat]? <;> simp [step, Inside, hc, hn, hl]
        · simp [step, Inside, hc, hn]
    · simp [step, Inside]
    · simp [step, Inside]
  | testMode => rcases h with rfl | rfl | rfl <;> simp [step, Inside]
  | sub name =>
    rcases h with rfl | ⟨x, rfl⟩ | ⟨u, n, rfl⟩ | ⟨u, n, x, rfl⟩ | ⟨u, rfl⟩ | rfl
    · simp [step, Inside]
    · simp [step, Inside]
    · by_cases hc : (n : Int) ≤ s.minSev <;> simp [step, Inside, hc]
    · cases hc : u.channels with
      | none => simp [step, Inside, hc]
      | some l => by_cases hn : n < l.length <;> simp [step, Inside, hc, hn]
    · simp [step, Inside]
    · simp [step, Inside]
  | log => rcases h with rfl | rfl <;> simp [step, Inside]
  | setNow => rcases h with rfl | rfl <;> simp [step, Inside]

/-- What a step does to the goroutine that makes it, and nothing to the others. -/
theorem apply_at {x y : State} {e : Event} (h : apply x e = some y) (g : Nat) :
    (e.goroutine ≠ g → y.at_ g = x.at_ g) ∧
    (∀ o, e = .call g o → x.at_ g = .idle ∧ y.at_ g = start o ∧ y.s = x.s) ∧
    (e = .step g → y.at_ g = (step x.s (x.at_ g)).2.1 ∧ y.s = (step x.s (x.at_ g)).1) ∧
    (∀ r, e = .ret g r → x.at_ g = .done r ∧ y.at_ g = .idle ∧ y.s = x.s) := by
  cases e with
  | call k o =>
    simp only [apply] at h
    split at h
    · rename_i hi
      simp only [Option.some.injEq] at h
      subst h
      refine ⟨fun hg => by simp only [State.goto]; rw [if_neg]; rintro rfl; exact hg rfl, ?_, by simp, by simp⟩
      intro o' he
      simp only [Event.call.injEq] at he
      obtain ⟨rfl, rfl⟩ := he
      exact ⟨hi, by simp [State.goto], rfl⟩
    · simp at h
  | step k =>
    simp only [apply, Option.some.injEq] at h
    subst h
    refine ⟨fun hg => by simp only [State.goto]; rw [if_neg]; rintro rfl; exact hg rfl, by simp, ?_, by simp⟩
    intro he
    simp only [Event.step.injEq] at he
    subst he
    exact ⟨by simp [State.goto], rfl⟩
  | ret k r =>
    simp only [apply] at h
    split at h
    · rename_i hi
      simp only [Option.some.injEq] at h
      subst h
      refine ⟨fun hg => by simp only [State.goto]; rw [if_neg]; rintro rfl; exact hg rfl, by simp, by simp, ?_⟩
      intro r' he
      simp only [Event.ret.injEq] at he
      obtain ⟨rfl, rfl⟩ := he
      exact ⟨hi, by simp [State.goto], rfl⟩
    · simp at h

theorem goroutine_cases (e : Event) : (∃ o, e = .call e.goroutine o) ∨ e = .step e.goroutine ∨ ∃ r, e = .ret e.goroutine r := by
  cases e <;> simp [Event.goroutine]

/-- From a call on, as long as it has not returned, the goroutine is inside it. -/
theorem inside_call {s : Syslog} {evs : List Event} {f : State} (hf : run (init s) evs = some f) {c : Nat} {g : Nat} {o : Op}
    (hc : evs[c]? = some (.call g o)) (i : Nat) (hi : c < i) (hlen : i ≤ evs.length)
    (hno : ∀ k r, c < k → k < i → evs[k]? ≠ some (.ret g r)) (x : State) (hx : run (init s) (evs.take i) = some x) :
    Inside o (x.at_ g) := by
  induction i generalizing x with
  | zero => omega
  | succ i ih =>
    obtain ⟨y, hy⟩ := run_take hf i
    obtain ⟨e, he⟩ : ∃ e, evs[i]? = some e := ⟨evs[i], List.getElem?_eq_getElem (by omega)⟩
    have ha := run_next he hy hx
    have hg := apply_at ha g
    by_cases hci : c = i
    · subst hci
      rw [hc] at he
      simp only [Option.some.injEq] at he
      rw [(hg.2.1 o he.symm).2.1]
      exact inside_start o
    · have h1 := ih (by omega) (by omega) (fun k r h1 h2 => hno k r h1 (by omega)) y hy
      by_cases hge : e.goroutine = g
      · rcases goroutine_cases e with ⟨o', h⟩ | h | ⟨r, h⟩
        · rw [hge] at h
          rw [(hg.2.1 o' h).1] at h1
          exact absurd h1 (inside_idle o)
        · rw [hge] at h
          rw [(hg.2.2.1 h).1]
          exact inside_step _ h1
        · rw [hge] at h
          rw [h] at he
          exact absurd he (hno i r (by omega) (by omega))
      · rw [hg.1 hge]; exact h1

/-- A goroutine that is not idle is inside a call that it has made. -/
theorem current {s : Syslog} {evs : List Event} {f : State} (hf : run (init s) evs = some f) (i : Nat) (hlen : i ≤ evs.length) (g : Nat)
    (x : State) (hx : run (init s) (evs.take i) = some x) (hidle : x.at_ g ≠ .idle) :
    ∃ c o, c < i ∧ evs[c]? = some (.call g o) ∧ ∀ k r, c < k → k < i → evs[k]? ≠ some (.ret g r) := by
  induction i generalizing x with
  | zero => simp only [List.take_zero, run, Option.some.injEq] at hx; subst hx; exact absurd rfl hidle
  | succ i ih =>
    obtain ⟨y, hy⟩ := run_take hf i
    obtain ⟨e, he⟩ : ∃ e, evs[i]? = some e := ⟨evs[i], List.getElem?_eq_getElem (by omega)⟩
    have hg := apply_at (run_next he hy hx) g
    have old : y.at_ g ≠ .idle → (∀ r, e ≠ .ret g r) →
        ∃ c o, c < i + 1 ∧ evs[c]? = some (.call g o) ∧ ∀ k r, c < k → k < i + 1 → evs[k]? ≠ some (.ret g r) := by
      intro h1 h2
      obtain ⟨c, o, h3, h4, h5⟩ := ih (by omega) y hy h1
      refine ⟨c, o, by omega, h4, fun k r h6 h7 => ?_⟩
      by_cases hk : k = i
      · subst hk; rw [he]; simpa using h2 r
      · exact h5 k r h6 (by omega)
    by_cases hge : e.goroutine = g
    · rcases goroutine_cases e with ⟨o', h⟩ | h | ⟨r, h⟩
      · rw [hge] at h
        subst h
        exact ⟨i, o', by omega, he, fun k r h1 h2 => by omega⟩
      · rw [hge] at h
        refine old (fun h0 => hidle ?_) (fun r hr => by rw [h] at hr; simp at hr)
        rw [(hg.2.2.1 h).1, h0]; rfl
      · rw [hge] at h
        exact absurd (hg.2.2.2 r h).2.1 hidle
    · refine old (by rw [← hg.1 hge]; exact hidle) (fun r hr => hge ?_)
      rw [hr]; rfl

/-! ## The table -/

theorem step_channels {s : Syslog} (a : At) (h : s.channels ≠ none) : (step s a).1.channels ≠ none := by
  cases a with
  | chanHost sev n => by_cases hc : (n : Int) ≤ s.minSev <;> simp [step, hc, h]
  | chanPid sev n x =>
    cases hc : s.channels with
    | none => exact absurd hc h
    | some l => by_cases hn : n < l.length <;> simp [step, hc, hn]
  | chanRead sev =>
    cases hc : s.channels with
    | none => exact absurd hc h
    | some l =>
      by_cases hn : 0 ≤ Priority.severity sev
      · cases hl : l[(Priority.severity sev).toNat]? <;> simp [step, hc, hn, hl]
      · simp [step, hc, hn]
  | subLoop u n => by_cases hc : (n : Int) ≤ s.minSev <;> simp [step, hc, h]
  | subLoopPid u n x =>
    cases hc : u.channels with
    | none => simp [step, hc, h]
    | some l => by_cases hn : n < l.length <;> simp [step, hc, hn, h]
  | _ => simp [step, h]

theorem apply_channels {x y : State} {e : Event} (h : apply x e = some y) (hx : x.s.channels ≠ none) : y.s.channels ≠ none := by
  have hg := apply_at h e.goroutine
  rcases goroutine_cases e with ⟨o', he⟩ | he | ⟨r, he⟩
  · rw [(hg.2.1 o' he).2.2]; exact hx
  · rw [(hg.2.2.1 he).2]; exact step_channels _ hx
  · rw [(hg.2.2.2 r he).2.2]; exact hx

/-- The table stays. -/
theorem channels_stay {s : Syslog} {evs : List Event} {f : State} (hf : run (init s) evs = some f) (i j : Nat) (hij : i ≤ j)
    (hlen : j ≤ evs.length) (x y : State) (hx : run (init s) (evs.take i) = some x) (hy : run (init s) (evs.take j) = some y)
    (h : x.s.channels ≠ none) : y.s.channels ≠ none := by
  induction j generalizing y with
  | zero =>
    have : i = 0 := by omega
    subst this
    rw [hx] at hy
    simp only [Option.some.injEq] at hy
    subst hy
    exact h
  | succ j ih =>
    by_cases hi : i = j + 1
    · subst hi
      rw [hx] at hy
      simp only [Option.some.injEq] at hy
      subst hy
      exact h
    · obtain ⟨z, hz⟩ := run_take hf j
      obtain ⟨e, he⟩ : ∃ e, evs[j]? = some e := ⟨evs[j], List.getElem?_eq_getElem (by omega)⟩
      exact apply_channels (run_next he hz hy) (ih (by omega) (by omega) z hz)

/-- A goroutine that has gone past the test of `Channel` has found or made the table. -/
def PastTest : At → Prop
  | .chanHost _ _ => True
  | .chanPid _ _ _ => True
  | .chanRead _ => True
  | .done (.channel _) => True
  | _ => False

theorem step_pastTest {s : Syslog} (a : At) (h : PastTest a → s.channels ≠ none) :
    PastTest (step s a).2.1 → (step s a).1.channels ≠ none := by
  intro hp
  cases a with
  | idle => simp [step, PastTest] at hp
  | chanTest sev =>
    by_cases hc : s.channels = none
    · simp [step, hc, PastTest] at hp
    · simp [step, hc]
  | chanAlloc sev => simp [step]
  | testHost => simp [step, PastTest] at hp
  | testPid => simp [step, PastTest] at hp
  | subHost n => simp [step, PastTest] at hp
  | subPid n x => simp [step, PastTest] at hp
  | subLoop u n => by_cases hc : (n : Int) ≤ s.minSev <;> simp [step, hc, PastTest] at hp
  | subLoopPid u n x =>
    cases hc : u.channels with
    | none => simp [step, hc, PastTest] at hp
    | some l => by_cases hn : n < l.length <;> simp [step, hc, hn, PastTest] at hp
  | log => simp [step, PastTest] at hp
  | setNow => simp [step, PastTest] at hp
  | crash => simp [step, PastTest] at hp
  | done r => exact step_channels (.done r) (h hp)
  | chanHost sev n => exact step_channels _ (h trivial)
  | chanPid sev n x => exact step_channels _ (h trivial)
  | chanRead sev => exact step_channels _ (h trivial)

theorem pastTest_channels {s : Syslog} {evs : List Event} {f : State} (hf : run (init s) evs = some f) (i : Nat)
    (hlen : i ≤ evs.length) (x : State) (hx : run (init s) (evs.take i) = some x) (g : Nat) (h : PastTest (x.at_ g)) :
    x.s.channels ≠ none := by
  induction i generalizing x with
  | zero => simp only [List.take_zero, run, Option.some.injEq] at hx; subst hx; exact absurd h (by simp [init, PastTest])
  | succ i ih =>
    obtain ⟨y, hy⟩ := run_take hf i
    obtain ⟨e, he⟩ : ∃ e, evs[i]? = some e := ⟨evs[i], List.getElem?_eq_getElem (by omega)⟩
    have ha := run_next he hy hx
    have hg := apply_at ha g
    by_cases hge : e.goroutine = g
    · rcases goroutine_cases e with ⟨o', h'⟩ | h' | ⟨r, h'⟩
      · rw [hge] at h'
        rw [(hg.2.1 o' h').2.1] at h
        cases o' <;> simp [start, PastTest] at h
      · rw [hge] at h'
        rw [(hg.2.2.1 h').1] at h
        rw [(hg.2.2.1 h').2]
        exact step_pastTest _ (ih (by omega) y hy) h
      · rw [hge] at h'
        rw [(hg.2.2.2 r h').2.1] at h
        simp [PastTest] at h
    · rw [hg.1 hge] at h
      exact apply_channels ha (ih (by omega) y hy h)

theorem step_quiet {s : Syslog} {a : At} (h : ¬ Building a) (hs : s.channels ≠ none) : ¬ Building (step s a).2.1 := by
  cases a with
  | chanTest sev => simp [step, hs, Building]
  | chanAlloc sev => exact absurd trivial h
  | chanHost sev n => exact absurd trivial h
  | chanPid sev n x => exact absurd trivial h
  | chanRead sev =>
    cases hc : s.channels with
    | none => exact absurd hc hs
    | some l =>
      by_cases hn : 0 ≤ Priority.severity sev
      · cases hl : l[(Priority.severity sev).toNat]? <;> simp [step, hc, hn, hl, Building]
      · simp [step, hc, hn, Building]
  | subLoop u n => by_cases hc : (n : Int) ≤ s.minSev <;> simp [step, hc, Building]
  | subLoopPid u n x =>
    cases hc : u.channels with
    | none => simp [step, hc, Building]
    | some l => by_cases hn : n < l.length <;> simp [step, hc, hn, Building]
  | _ => simp [step, Building]

/-- A call made when the table is there does not build it. -/
theorem quiet {s : Syslog} {evs : List Event} {f : State} (hf : run (init s) evs = some f) {c : Nat} {g : Nat} {o : Op}
    (hc : evs[c]? = some (.call g o)) (y : State) (hy : run (init s) (evs.take c) = some y) (hready : y.s.channels ≠ none)
    (i : Nat) (hi : c < i) (hlen : i ≤ evs.length)
    (hno : ∀ k r, c < k → k < i → evs[k]? ≠ some (.ret g r)) (x : State) (hx : run (init s) (evs.take i) = some x) :
    ¬ Building (x.at_ g) := by
  induction i generalizing x with
  | zero => omega
  | succ i ih =>
    obtain ⟨z, hz⟩ := run_take hf i
    obtain ⟨e, he⟩ : ∃ e, evs[i]? = some e := ⟨evs[i], List.getElem?_eq_getElem (by omega)⟩
    have hg := apply_at (run_next he hz hx) g
    by_cases hci : c = i
    · subst hci
      rw [hc] at he
      simp only [Option.some.injEq] at he
      rw [(hg.2.1 o he.symm).2.1]
      cases o <;> simp [start, Building]
    · have h1 := ih (by omega) (by omega) (fun k r h1 h2 => hno k r h1 (by omega)) z hz
      by_cases hge : e.goroutine = g
      · rcases goroutine_cases e with ⟨o', h⟩ | h | ⟨r, h⟩
        · rw [hge] at h
          rw [(hg.2.1 o' h).2.1]
          cases o' <;> simp [start, Building]
        · rw [hge] at h
          rw [(hg.2.2.1 h).1]
          exact step_quiet h1 (channels_stay hf c i (by omega) (by omega) y z hy hz hready)
        · rw [hge] at h
          rw [h] at he
          exact absurd he (hno i r (by omega) (by omega))
      · rw [hg.1 hge]; exact h1

/-! ## Which calls touch what -/

/-- Two accesses of two goroutines can only conflict when the calls exclude each other, or one of them builds the table. -/
theorem conflict_calls {o o' : Op} {a a' : At} (s s' : Syslog) (h : Inside o a) (h' : Inside o' a') {p q : Access}
    (hp : p ∈ (step s a).2.2) (hq : q ∈ (step s' a').2.2) (hl : p.loc = q.loc) (hw : p.write = true ∨ q.write = true) :
    Exclusive o o' ∨ (Building a ∧ (o' = .testMode ∨ ∃ v, o' = .channel v)) ∨ (Building a' ∧ (o = .testMode ∨ ∃ v, o = .channel v)) := by
  have key : ∀ {o : Op} {a : At} (s : Syslog), Inside o a → ∀ p ∈ (step s a).2.2,
      (p.write = true → (p.loc = .now ∧ o = .setNow) ∨ ((p.loc = .hostname ∨ p.loc = .pid) ∧ o = .testMode) ∨
        ((p.loc = .channels ∨ ∃ n, p.loc = .entry n) ∧ Building a ∧ ∃ v, o = .channel v)) ∧
      (p.loc = .now → o = .setNow ∨ o = .log) ∧
      (p.loc = .hostname ∨ p.loc = .pid → o = .testMode ∨ (∃ n, o = .sub n) ∨ (Building a ∧ ∃ v, o = .channel v)) ∧
      (p.loc = .channels ∨ (∃ n, p.loc = .entry n) → ∃ v, o = .channel v) := by
    intro o a s h p hp
    cases o with
    | channel sev =>
      rcases h with rfl | rfl | ⟨n, rfl⟩ | ⟨n, x, rfl⟩ | rfl | ⟨c, rfl⟩ | rfl
      · simp [step, rd] at hp; subst hp; simp
      · simp only [step, wr, List.mem_cons, List.mem_map] at hp
        rcases hp with rfl | ⟨m, _, rfl⟩ <;> simp [Building]
      · by_cases hc : (n : Int) ≤ s.minSev <;> simp [step, hc, rd] at hp <;> (try rcases hp with rfl | rfl | rfl) <;>
          (try subst hp) <;> simp [Building]
      · cases hc : s.channels with
        | none => simp [step, hc, rd] at hp; rcases hp with rfl | rfl | rfl | rfl <;> simp [Building]
        | some l =>
          by_cases hn : n < l.length
          · simp [step, hc, hn, rd, wr] at hp; rcases hp with rfl | rfl | rfl | rfl | rfl <;> simp [Building]
          · simp [step, hc, hn, rd] at hp; rcases hp with rfl | rfl | rfl | rfl <;> simp [Building]
      · cases hc : s.channels with
        | none => simp [step, hc, rd] at hp; subst hp; simp
        | some l =>
          by_cases hn : 0 ≤ Priority.severity sev
          · cases hl : l[(Priority.severity sev).toNat]? with
            | none => simp [step, hc, hn, hl, rd] at hp; subst hp; simp
            | some c => simp [step, hc, hn, hl, rd] at hp; rcases hp with rfl | rfl <;> simp
          · simp [step, hc, hn, rd] at hp; subst hp; simp
      · simp [step] at hp
      · simp [step] at hp
    | testMode => rcases h with rfl | rfl | rfl <;> simp [step, wr] at hp <;> subst hp <;> simp
    | sub name =>
      rcases h with rfl | ⟨x, rfl⟩ | ⟨u, n, rfl⟩ | ⟨u, n, x, rfl⟩ | ⟨u, rfl⟩ | rfl
      · simp [step, rd] at hp; rcases hp with rfl | rfl | rfl <;> simp
      · simp [step, rd] at hp; rcases hp with rfl | rfl | rfl <;> simp
      · by_cases hc : (n : Int) ≤ s.minSev <;> simp [step, hc, rd] at hp <;> (try rcases hp with rfl | rfl | rfl) <;>
          (try subst hp) <;> simp
      · cases hc : u.channels with
        | none => simp [step, hc, rd] at hp; rcases hp with rfl | rfl <;> simp
        | some l => by_cases hn : n < l.length <;> simp [step, hc, hn, rd] at hp <;> rcases hp with rfl | rfl <;> simp
      · simp [step] at hp
      · simp [step] at hp
    | log => rcases h with rfl | rfl <;> simp [step, rd] at hp; subst hp; simp
    | setNow => rcases h with rfl | rfl <;> simp [step, wr] at hp; subst hp; simp
  obtain ⟨p1, p2, p3, p4⟩ := key s h p hp
  obtain ⟨q1, q2, q3, q4⟩ := key s' h' q hq
  rcases hw with hw | hw
  · rcases p1 hw with ⟨h1, rfl⟩ | ⟨h1, rfl⟩ | ⟨h1, hb, v, rfl⟩
    · rcases q2 (hl ▸ h1) with rfl | rfl <;> exact .inl trivial
    · rcases q3 (hl ▸ h1) with rfl | ⟨n, rfl⟩ | ⟨hb, v, rfl⟩
      · exact .inl trivial
      · exact .inl trivial
      · exact .inr (.inr ⟨hb, .inl rfl⟩)
    · exact .inr (.inl ⟨hb, .inr (q4 (hl ▸ h1))⟩)
  · rcases q1 hw with ⟨h1, rfl⟩ | ⟨h1, rfl⟩ | ⟨h1, hb, v, rfl⟩
    · rcases p2 (hl ▸ h1) with rfl | rfl <;> exact .inl trivial
    · rcases p3 (hl ▸ h1) with rfl | ⟨n, rfl⟩ | ⟨hb, v, rfl⟩
      · exact .inl trivial
      · exact .inl trivial
      · exact .inr (.inl ⟨hb, .inl rfl⟩)
    · exact .inr (.inr ⟨hb, .inr (p4 (hl ▸ h1))⟩)

theorem before_lt {evs : List Event} {sync : Nat → Nat → Prop} {i j : Nat} (h : Before evs sync i j) : i < j := by
  induction h with
  | program h => exact h
  | user h => exact h
  | trans _ _ h1 h2 => omega

/-- A step that touches something belongs to a call. -/
theorem touch_call {s : Syslog} {evs : List Event} {f : State} (hf : run (init s) evs = some f) {i : Nat} {p : Access}
    (h : Touches s evs i p) : ∃ x g c o, run (init s) (evs.take i) = some x ∧ evs[i]? = some (.step g) ∧ c < i ∧
      evs[c]? = some (.call g o) ∧ (∀ k r, c < k → k < i → evs[k]? ≠ some (.ret g r)) ∧ Inside o (x.at_ g) ∧
      p ∈ (step x.s (x.at_ g)).2.2 := by
  obtain ⟨x, e, hx, he, hp⟩ := h
  have hlen : i < evs.length := (List.getElem?_eq_some_iff.mp he).1
  cases e with
  | call g o => simp [accesses] at hp
  | ret g r => simp [accesses] at hp
  | step g =>
    simp only [accesses] at hp
    have hidle : x.at_ g ≠ .idle := fun h0 => by rw [h0] at hp; simp [step] at hp
    obtain ⟨c, o, h1, h2, h3⟩ := current hf i (by omega) g x hx hidle
    exact ⟨x, g, c, o, hx, he, h1, h2, h3, inside_call hf h2 i h1 (by omega) h3 x hx, hp⟩

/-- The steps of two calls that the program keeps apart are ordered. -/
theorem ordered {evs : List Event} {sync : Nat → Nat → Prop} {i j ci cj g h : Nat} {o o' : Op} (hij : i < j)
    (hi : evs[i]? = some (.step g)) (hj : evs[j]? = some (.step h)) (hci : ci < i) (hcj : cj < j)
    (ei : evs[ci]? = some (.call g o)) (ej : evs[cj]? = some (.call h o'))
    (ni : ∀ k r, ci < k → k < i → evs[k]? ≠ some (.ret g r)) (nj : ∀ k r, cj < k → k < j → evs[k]? ≠ some (.ret h r))
    (hp : Precedes evs sync ci cj ∨ Precedes evs sync cj ci) : Before evs sync i j := by
  rcases hp with ⟨r, ⟨g', o1, x, e1, e2, h1, _⟩, hb⟩ | ⟨r, ⟨g', o1, x, e1, e2, h1, _⟩, hb⟩
  · rw [ei] at e1
    simp only [Option.some.injEq, Event.call.injEq] at e1
    obtain ⟨rfl, rfl⟩ := e1
    have hir : i < r := by
      refine Nat.lt_of_not_le fun hle => ?_
      rcases Nat.lt_or_eq_of_le hle with hlt | rfl
      · exact ni r x h1 hlt e2
      · rw [hi] at e2; simp at e2
    exact .trans (.program hir hi e2 rfl) (.trans hb (.program hcj ej hj rfl))
  · exfalso
    rw [ej] at e1
    simp only [Option.some.injEq, Event.call.injEq] at e1
    obtain ⟨rfl, rfl⟩ := e1
    have hlt := before_lt hb
    by_cases hle : r < j
    · exact nj r x h1 hle e2
    · omega

/-- No race, if the calls that build the table are ordered with the other calls of `Channel` and with those of `TestMode`. -/
theorem no_race {s : Syslog} {evs : List Event} {f : State} (hf : run (init s) evs = some f) (sync : Nat → Nat → Prop)
    (hcare : Careful evs sync)
    (hbuild : ∀ i x g c o, run (init s) (evs.take i) = some x → evs[i]? = some (.step g) → c < i → evs[c]? = some (.call g o) →
      (∀ k r, c < k → k < i → evs[k]? ≠ some (.ret g r)) → Building (x.at_ g) →
      ∀ c' h o', evs[c']? = some (.call h o') → g ≠ h → (o' = .testMode ∨ ∃ v, o' = .channel v) →
        Precedes evs sync c c' ∨ Precedes evs sync c' c)
    (i j : Nat) : ¬ DataRace s evs sync i j := by
  rintro ⟨hij, ⟨a, b, ha, hb, hne⟩, ⟨p, q, hp, hq, hl, hw⟩, hnot⟩
  obtain ⟨x, g, c, o, x1, x2, x3, x4, x5, x6, x7⟩ := touch_call hf hp
  obtain ⟨y, h, d, o', y1, y2, y3, y4, y5, y6, y7⟩ := touch_call hf hq
  rw [x2] at ha; rw [y2] at hb
  simp only [Option.some.injEq] at ha hb
  subst ha; subst hb
  simp only [Event.goroutine, ne_eq] at hne
  refine hnot (ordered hij x2 y2 x3 y3 x4 y4 x5 y5 ?_)
  rcases conflict_calls x.s y.s x6 y6 x7 y7 hl hw with h1 | ⟨h1, h2⟩ | ⟨h1, h2⟩
  · exact hcare c d g h o o' x4 y4 hne h1
  · exact hbuild i x g c o x1 x2 x3 x4 x5 h1 d h o' y4 hne h2
  · exact (hbuild j y h d o' y1 y2 y3 y4 y5 h1 c g o x4 (fun e => hne e.symm) h2).symm

/-! ## Results -/

/-- The shared object is `s`, except perhaps for what `TestMode` writes; `still` says that nobody calls `TestMode`. -/
structure Same (s : Syslog) (still : Prop) (x : Syslog) : Prop where
  facility : x.facility = s.facility
  appname : x.appname = s.appname
  output : x.output = s.output
  minSev : x.minSev = s.minSev
  channels : x.channels = s.channels
  hostname : still → x.hostname = s.hostname
  pid : still → x.pid = s.pid

theorem step_same {s x : Syslog} {still : Prop} {a : At} (h : Same s still x) (hb : ¬ Building a)
    (ht : still → a ≠ .testHost ∧ a ≠ .testPid) : Same s still (step x a).1 := by
  cases a with
  | chanAlloc sev => exact absurd trivial hb
  | chanHost sev n => exact absurd trivial hb
  | chanPid sev n y => exact absurd trivial hb
  | chanRead sev =>
    cases hc : x.channels with
    | none => simp only [step, hc]; exact h
    | some l =>
      by_cases hn : 0 ≤ Priority.severity sev
      · cases hl : l[(Priority.severity sev).toNat]? <;> simp only [step, hc, hn, hl, if_true] <;> exact h
      · simp only [step, hc, hn, if_false]; exact h
  | subLoop u n => by_cases hc : (n : Int) ≤ x.minSev <;> simp only [step, hc, if_true, if_false] <;> exact h
  | subLoopPid u n y =>
    cases hc : u.channels with
    | none => simp only [step, hc]; exact h
    | some l => by_cases hn : n < l.length <;> simp only [step, hc, hn, if_true, if_false] <;> exact h
  | testHost =>
    exact ⟨h.facility, h.appname, h.output, h.minSev, h.channels, fun hs => absurd rfl (ht hs).1, h.pid⟩
  | testPid =>
    exact ⟨h.facility, h.appname, h.output, h.minSev, h.channels, h.hostname, fun hs => absurd rfl (ht hs).2⟩
  | chanTest sev => exact h
  | idle => exact h
  | subHost n => exact h
  | subPid n y => exact h
  | log => exact h
  | setNow => exact h
  | done r => exact h
  | crash => exact h

/-- An object whose table is there at the start stays the same. -/
theorem same_all {s : Syslog} {evs : List Event} {f : State} (hf : run (init s) evs = some f) (hready : s.channels ≠ none) (still : Prop)
    (hstill : still → ∀ g, Event.call g .testMode ∉ evs) (i : Nat) (hlen : i ≤ evs.length) (x : State)
    (hx : run (init s) (evs.take i) = some x) : Same s still x.s := by
  induction i generalizing x with
  | zero =>
    simp only [List.take_zero, run, Option.some.injEq] at hx
    subst hx
    exact ⟨rfl, rfl, rfl, rfl, rfl, fun _ => rfl, fun _ => rfl⟩
  | succ i ih =>
    obtain ⟨y, hy⟩ := run_take hf i
    obtain ⟨e, he⟩ : ∃ e, evs[i]? = some e := ⟨evs[i], List.getElem?_eq_getElem (by omega)⟩
    have h := ih (by omega) y hy
    have hg := apply_at (run_next he hy hx) e.goroutine
    rcases goroutine_cases e with ⟨o', h'⟩ | h' | ⟨r, h'⟩
    · rw [(hg.2.1 o' h').2.2]; exact h
    · rw [(hg.2.2.1 h').2]
      by_cases hidle : y.at_ e.goroutine = .idle
      · rw [hidle]; exact h
      · obtain ⟨c, o, h1, h2, h3⟩ := current hf i (by omega) _ y hy hidle
        obtain ⟨z, hz⟩ := run_take hf c
        have hz' : z.s.channels ≠ none := channels_stay hf 0 c (by omega) (by omega) (init s) z rfl hz hready
        refine step_same h (quiet hf h2 z hz hz' i h1 (by omega) h3 y hy) (fun hs => ?_)
        have hin := inside_call hf h2 i h1 (by omega) h3 y hy
        have hno := hstill hs e.goroutine
        have hne : o ≠ .testMode := by
          rintro rfl
          exact hno (List.mem_of_getElem? h2)
        constructor <;> intro ha <;> rw [ha] at hin <;> cases o <;> simp [Inside] at hin hne
    · rw [(hg.2.2.2 r h').2.2]; exact h

/-- A property of a goroutine inside a call. -/
theorem along {s : Syslog} {evs : List Event} {f : State} (hf : run (init s) evs = some f) {Q : Syslog → Prop} {P : At → Prop}
    (hQ : ∀ i x, i ≤ evs.length → run (init s) (evs.take i) = some x → Q x.s) {c : Nat} {g : Nat} {o : Op}
    (hc : evs[c]? = some (.call g o)) (hstart : P (start o)) (hidle : ¬ P .idle) (hstep : ∀ x a, Q x → P a → P (step x a).2.1)
    (i : Nat) (hi : c < i) (hlen : i ≤ evs.length)
    (hno : ∀ k r, c < k → k < i → evs[k]? ≠ some (.ret g r)) (x : State) (hx : run (init s) (evs.take i) = some x) :
    P (x.at_ g) := by
  induction i generalizing x with
  | zero => omega
  | succ i ih =>
    obtain ⟨y, hy⟩ := run_take hf i
    obtain ⟨e, he⟩ : ∃ e, evs[i]? = some e := ⟨evs[i], List.getElem?_eq_getElem (by omega)⟩
    have ha := run_next he hy hx
    have hg := apply_at ha g
    by_cases hci : c = i
    · subst hci
      rw [hc] at he
      simp only [Option.some.injEq] at he
      rw [(hg.2.1 o he.symm).2.1]
      exact hstart
    · have h1 := ih (by omega) (by omega) (fun k r h1 h2 => hno k r h1 (by omega)) y hy
      by_cases hge : e.goroutine = g
      · rcases goroutine_cases e with ⟨o', h⟩ | h | ⟨r, h⟩
        · rw [hge] at h
          rw [(hg.2.1 o' h).1] at h1
          exact absurd h1 hidle
        · rw [hge] at h
          rw [(hg.2.2.1 h).1]
          exact hstep _ _ (hQ i y (by omega) hy) h1
        · rw [hge] at h
          rw [h] at he
          exact absurd he (hno i r (by omega) (by omega))
      · rw [hg.1 hge]; exact h1

/-- What a goroutine inside `Channel` has, when the table was there. -/
def ChanOk (s : Syslog) (sev : Int) (a : At) : Prop :=
  a = .chanTest sev ∨ a = .chanRead sev ∨ ∃ c, a = .done (.channel c) ∧ s.channel sev = .ret (s, c)

theorem chanOk_step {s : Syslog} {still : Prop} {l : List Channel} (hl : s.channels = some l) (h8 : l.length = 8) {sev : Int} (x : Syslog) (a : At)
    (hx : Same s still x) (h : ChanOk s sev a) : ChanOk s sev (step x a).2.1 := by
  have hs := sev_range sev
  rcases h with rfl | rfl | ⟨c, rfl, hc⟩
  · right; left
    simp [step, hx.channels, hl]
  · right; right
    have hn : (Priority.severity sev).toNat < l.length := by omega
    refine ⟨l[(Priority.severity sev).toNat], ?_, ?_⟩
    · simp [step, hx.channels, hl, hs.1, List.getElem?_eq_getElem hn]
    · have ht : s.table = some l := by unfold Syslog.table; rw [hl]
      unfold Syslog.channel
      rw [ht]
      simp only
      rw [if_pos hs.1, List.getElem?_eq_getElem hn]
      simp only
      rw [← hl]
  · exact .inr (.inr ⟨c, rfl, hc⟩)

/-- What a goroutine inside `SubSyslog` has; the host name and the process identifier only if nobody calls `TestMode`. -/
def SubOk (s : Syslog) (still : Prop) (name : Bytes) (a : At) : Prop :=
  let app := if s.appname = b!"-" then name else s.appname ++ b!"/" ++ name
  let made (u : Syslog) (n : Nat) : Prop := n ≤ (s.minSev + 1).toNat ∧ u.appname = app ∧ u.facility = s.facility ∧ u.output = s.output ∧
    u.minSev = s.minSev ∧ (∃ l, u.channels = some l ∧ l.length = 8) ∧
    (still → u.hostname = s.hostname ∧ u.pid = s.pid ∧ u.channels = s.fill app n Syslog.nulls)
  a = .subHost name ∨ (∃ h, a = .subPid name h ∧ (still → h = s.hostname)) ∨ (∃ u n, a = .subLoop u n ∧ made u n) ∨
    (∃ u n h, a = .subLoopPid u n h ∧ made u n ∧ (n : Int) ≤ s.minSev ∧ (still → h = s.hostname)) ∨
    (∃ u, a = .done (.sub u) ∧ u.appname = app ∧ (still → s.subSyslog name = .ret u))

theorem subOk_step {s : Syslog} {still : Prop} (h8 : s.minSev < 8) {name : Bytes} (x : Syslog) (a : At)
    (hx : Same s still x) (h : SubOk s still name a) : SubOk s still name (step x a).2.1 := by
  rcases h with rfl | ⟨h, rfl, hh⟩ | ⟨u, n, rfl, hn, ha, hf, ho, hm, hc, hst⟩ | ⟨u, n, h, rfl, ⟨hn, ha, hf, ho, hm, ⟨l, hl, hlen⟩, hst⟩, hle, hh⟩ | ⟨u, rfl, hu⟩
  · exact .inr (.inl ⟨_, rfl, hx.hostname⟩)
  · refine .inr (.inr (.inl ⟨_, _, rfl, by omega, ?_, hx.facility, hx.output, hx.minSev, ⟨_, rfl, rfl⟩, fun hs => ⟨hh hs, hx.pid hs, rfl⟩⟩))
    simp only [hx.appname]
  · by_cases hle : (n : Int) ≤ s.minSev
    · refine .inr (.inr (.inr (.inl ⟨u, n, x.hostname, ?_, ⟨hn, ha, hf, ho, hm, hc, hst⟩, hle, hx.hostname⟩)))
      simp [step, hx.minSev, hle]
    · refine .inr (.inr (.inr (.inr ⟨u, ?_, ha, fun hs => ?_⟩)))
      · simp [step, hx.minSev, hle]
      · obtain ⟨h1, h2, h3⟩ := hst hs
        obtain ⟨l, hl, _⟩ := hc
        have hnn : n = (s.minSev + 1).toNat := by omega
        subst hnn
        unfold Syslog.subSyslog
        simp only
        rw [← h3, hl]
        simp only
        rw [← hf, ← h1, ← h2, ← ha, ← hl, ← ho, ← hm]
  · have hn8 : n < l.length := by omega
    refine .inr (.inr (.inl ⟨{ u with channels := some (l.set n (.tru ⟨Priority.or x.facility n, h, x.pid, u.appname, b!"-", x.output⟩)) },
      n + 1, ?_, by omega, ha, hf, ho, hm, ⟨_, rfl, by simp [hlen]⟩, fun hs => ?_⟩))
    · simp [step, hl, hn8]
    · obtain ⟨h1, h2, h3⟩ := hst hs
      refine ⟨h1, h2, ?_⟩
      rw [hl] at h3
      simp only [Syslog.fill, ← h3, Option.bind_eq_bind, Option.bind_some, hn8, if_true]
      rw [hx.facility, hx.output, hh hs, hx.pid hs, ha]
  · exact .inr (.inr (.inr (.inr ⟨u, rfl, hu⟩)))

end Shared

/-! ## C103 -/

theorem ready_table {s : Syslog} (h : ReadyToShare s) : ∃ l, s.channels = some l ∧ l.length = 8 ∧ s.minSev < 8 := by
  obtain ⟨host, pid, out, p, app, s0, history, s1, hpid, h0, h1, h2⟩ := h
  obtain ⟨s2, h3, h4⟩ := calls_inv (new_inv hpid h0) history
  rw [h1] at h3
  simp only [Out.ret.injEq] at h3
  subst h3
  have hr := sev_range p
  rcases h2 with ⟨sev, c, h5⟩ | ⟨name, h5⟩
  · obtain ⟨s3, c3, h6, h7, _⟩ := channel_inv h4 sev
    rw [h5] at h6
    simp only [Out.ret.injEq, Prod.mk.injEq] at h6
    obtain ⟨rfl, rfl⟩ := h6
    have hsome : ∃ l, s.channels = some l := by
      unfold Syslog.channel at h5
      cases ht : s1.table with
      | none => rw [ht] at h5; simp at h5
      | some l =>
        rw [ht] at h5
        simp only at h5
        split at h5
        · split at h5
          · simp only [Out.ret.injEq, Prod.mk.injEq] at h5
            exact ⟨l, by rw [← h5.1]⟩
          · simp at h5
        · simp at h5
    obtain ⟨l, hl⟩ := hsome
    exact ⟨l, hl, (h7.channels l hl).1, by rw [h7.minSev]; omega⟩
  · obtain ⟨s3, h6, h7⟩ := call_inv h4 (.sub name)
    simp only [Syslog.call] at h6
    rw [h5] at h6
    simp only [Out.ret.injEq] at h6
    subst h6
    have hsome : ∃ l, s.channels = some l := by
      unfold Syslog.subSyslog at h5
      simp only at h5
      split at h5
      · simp at h5
      · simp only [Out.ret.injEq] at h5
        rename_i l _
        exact ⟨l, by rw [← h5]⟩
    obtain ⟨l, hl⟩ := hsome
    exact ⟨l, hl, (h7.channels l hl).1, by rw [h7.minSev]; omega⟩

/-- **C103**. On an object on which `Channel` has returned once, or that `SubSyslog` has returned, any number of goroutines may call `Channel`,
`SubSyslog` and the methods of the channels in any order and at the same time: there is no data race, even if the program orders nothing;
if the program also calls `TestMode` or assigns `Now`, it is enough that it keeps these apart from one another, from `SubSyslog`, and
from `Log` respectively. -/
theorem C103_shared_partial (s : Syslog) (hready : ReadyToShare s) (evs : List Event) (f : State) (hf : run (init s) evs = some f)
    (sync : Nat → Nat → Prop) (hcare : Careful evs sync) (i j : Nat) : ¬ DataRace s evs sync i j := by
  obtain ⟨l, hl, _⟩ := ready_table hready
  refine no_race hf sync hcare ?_ i j
  intro i x g c o hx hi hci hc hno hb
  obtain ⟨z, hz⟩ := run_take hf c
  have hlen : i < evs.length := (List.getElem?_eq_some_iff.mp hi).1
  have hz' : z.s.channels ≠ none := channels_stay hf 0 c (by omega) (by omega) (init s) z rfl hz (by simp [init, hl])
  exact absurd hb (quiet hf hc z hz hz' i hci (by omega) hno x hx)

/-- **C103**, without any condition on the order: nobody calls `TestMode` or assigns `Now`. -/
theorem C103_no_race_partial (s : Syslog) (hready : ReadyToShare s) (evs : List Event) (f : State) (hf : run (init s) evs = some f)
    (hno : ∀ g, Event.call g .testMode ∉ evs ∧ Event.call g .setNow ∉ evs) (sync : Nat → Nat → Prop) (i j : Nat) :
    ¬ DataRace s evs sync i j := by
  refine C103_shared_partial s hready evs f hf sync ?_ i j
  intro i j g h a b hi hj hne hx
  have h1 := List.mem_of_getElem? hi
  have h2 := List.mem_of_getElem? hj
  cases a <;> cases b <;> simp only [Exclusive] at hx
  all_goals first
    | exact absurd h1 (hno g).1
    | exact absurd h1 (hno g).2
    | exact absurd h2 (hno h).1
    | exact absurd h2 (hno h).2

/-- **C103**, an object on which nobody has called `Channel` yet: no data race if one call of `Channel` has returned before every other call
of `Channel`, and is kept apart from the calls of `TestMode` of other goroutines, besides what `C103_shared_partial` asks for. -/
theorem C103_first_partial (s : Syslog) (evs : List Event) (f : State) (hf : run (init s) evs = some f) (sync : Nat → Nat → Prop)
    (hcare : Careful evs sync) (k g0 : Nat) (sev : Int) (hk : evs[k]? = some (.call g0 (.channel sev)))
    (hfirst : ∀ (j h : Nat) v, j ≠ k → evs[j]? = some (.call h (.channel v)) → Precedes evs sync k j)
    (htest : ∀ (j h : Nat), h ≠ g0 → evs[j]? = some (.call h .testMode) → Precedes evs sync k j ∨ Precedes evs sync j k) (i j : Nat) :
    ¬ DataRace s evs sync i j := by
  refine no_race hf sync hcare ?_ i j
  intro i x g c o hx hi hci hc hno hb c' h o' hc' hne hop
  have hlen : i < evs.length := (List.getElem?_eq_some_iff.mp hi).1
  have hin := inside_call hf hc i hci (by omega) hno x hx
  have hch : ∃ v, o = .channel v := by
    cases o with
    | channel v => exact ⟨v, rfl⟩
    | testMode => rcases hin with h1 | h1 | h1 <;> rw [h1] at hb <;> exact absurd hb (by simp [Building])
    | sub n =>
      rcases hin with h1 | ⟨_, h1⟩ | ⟨_, _, h1⟩ | ⟨_, _, _, h1⟩ | ⟨_, h1⟩ | h1 <;> rw [h1] at hb <;> exact absurd hb (by simp [Building])
    | log => rcases hin with h1 | h1 <;> rw [h1] at hb <;> exact absurd hb (by simp [Building])
    | setNow => rcases hin with h1 | h1 <;> rw [h1] at hb <;> exact absurd hb (by simp [Building])
  obtain ⟨v, rfl⟩ := hch
  have hck : c = k := by
    refine Classical.byContradiction fun hckn => ?_
    obtain ⟨r, ⟨g1, o1, y, e1, e2, hkr, hnr⟩, hbr⟩ := hfirst c g v hckn hc
    rw [hk] at e1
    simp only [Option.some.injEq, Event.call.injEq] at e1
    obtain ⟨rfl, rfl⟩ := e1
    have hrc := before_lt hbr
    obtain ⟨w, hw⟩ := run_take hf r
    obtain ⟨w', hw'⟩ := run_take hf (r + 1)
    have hin' := inside_call hf hk r hkr (by omega) (fun q y' h1 h2 => hnr q y' h1 h2) w hw
    have hd := ((apply_at (run_next e2 hw hw') g0).2.2.2 y rfl).1
    have hp : PastTest (w.at_ g0) := by
      rw [hd] at hin' ⊢
      simp [Inside] at hin'
      obtain ⟨cc, rfl⟩ := hin'
      trivial
    have hch := pastTest_channels hf r (by omega) w hw g0 hp
    obtain ⟨z, hz⟩ := run_take hf c
    exact quiet hf hc z hz (channels_stay hf r c (by omega) (by omega) w z hw hz hch) i hci (by omega) hno x hx hb
  subst hck
  rw [hc] at hk
  simp only [Option.some.injEq, Event.call.injEq] at hk
  obtain ⟨rfl, _⟩ := hk
  rcases hop with rfl | ⟨v', rfl⟩
  · exact htest c' h (fun e => hne e.symm) hc'
  · refine .inl (hfirst c' h v' ?_ hc')
    rintro rfl
    rw [hc] at hc'
    simp only [Option.some.injEq, Event.call.injEq] at hc'
    exact hne hc'.1

/-- **C103**, what the calls return: on an object that is ready, every call of `Channel` returns what it returns alone, whatever the others
do at the same time (even `TestMode`). -/
theorem C103_channel (s : Syslog) (hready : ReadyToShare s) (evs : List Event) (f : State) (hf : run (init s) evs = some f)
    (i r g : Nat) (sev : Int) (x : Shared.Res) (hret : ReturnOf evs i r) (hi : evs[i]? = some (.call g (.channel sev)))
    (hr : evs[r]? = some (.ret g x)) : ∃ c, x = .channel c ∧ s.channel sev = .ret (s, c) := by
  obtain ⟨l, hl, h8, _⟩ := ready_table hready
  obtain ⟨g', o', x', e1, e2, hlt, hno⟩ := hret
  rw [hi] at e1; rw [hr] at e2
  simp only [Option.some.injEq, Event.call.injEq, Event.ret.injEq] at e1 e2
  obtain ⟨rfl, rfl⟩ := e1
  obtain ⟨_, rfl⟩ := e2
  have hlen : r < evs.length := (List.getElem?_eq_some_iff.mp hr).1
  obtain ⟨w, hw⟩ := run_take hf r
  obtain ⟨w', hw'⟩ := run_take hf (r + 1)
  have h := along hf (Q := Same s False) (P := ChanOk s sev)
    (fun i x hi hx => same_all hf (by simp [hl]) False (fun h => h.elim) i hi x hx) hi (.inl rfl) (by simp [ChanOk])
    (fun x a hx ha => chanOk_step hl h8 x a hx ha) r hlt (by omega) hno w hw
  have hd := ((apply_at (run_next hr hw hw') g).2.2.2 x rfl).1
  rw [hd] at h
  rcases h with h | h | ⟨c, h, hc⟩
  · cases h
  · cases h
  · simp only [At.done.injEq] at h
    exact ⟨c, h, hc⟩

/-- **C103**, what the calls return: every call of `SubSyslog` returns what it returns alone, whatever the others do at the same time, if
nobody calls `TestMode`. -/
theorem C103_sub_partial (s : Syslog) (hready : ReadyToShare s) (evs : List Event) (f : State) (hf : run (init s) evs = some f)
    (hno : ∀ g, Event.call g .testMode ∉ evs)
    (i r g : Nat) (name : Bytes) (x : Shared.Res) (hret : ReturnOf evs i r) (hi : evs[i]? = some (.call g (.sub name)))
    (hr : evs[r]? = some (.ret g x)) : ∃ u, x = .sub u ∧ s.subSyslog name = .ret u := by
  obtain ⟨l, hl, h8, hm⟩ := ready_table hready
  obtain ⟨g', o', x', e1, e2, hlt, hnr⟩ := hret
  rw [hi] at e1; rw [hr] at e2
  simp only [Option.some.injEq, Event.call.injEq, Event.ret.injEq] at e1 e2
  obtain ⟨rfl, rfl⟩ := e1
  obtain ⟨_, rfl⟩ := e2
  have hlen : r < evs.length := (List.getElem?_eq_some_iff.mp hr).1
  obtain ⟨w, hw⟩ := run_take hf r
  obtain ⟨w', hw'⟩ := run_take hf (r + 1)
  have h := along hf (Q := Same s True) (P := SubOk s True name)
    (fun i x hi hx => same_all hf (by simp [hl]) True (fun _ => hno) i hi x hx) hi (.inl rfl) (by simp [SubOk])
    (fun x a hx ha => subOk_step hm x a hx ha) r hlt (by omega) hnr w hw
  have hd := ((apply_at (run_next hr hw hw') g).2.2.2 x rfl).1
  rw [hd] at h
  rcases h with h | ⟨_, h, _⟩ | ⟨_, _, h, _⟩ | ⟨_, _, _, h, _⟩ | ⟨u, h, _, hu⟩
  · cases h
  · cases h
  · cases h
  · cases h
  · simp only [At.done.injEq] at h
    exact ⟨u, h, hu trivial⟩

/-- **C103**, no crash: on an object that is ready, whatever the goroutines do at the same time, no call panics. -/
theorem C103_no_panic (s : Syslog) (hready : ReadyToShare s) (evs : List Event) (f : State) (hf : run (init s) evs = some f) (g : Nat) :
    f.at_ g ≠ .crash := by
  obtain ⟨l, hl, h8, hm⟩ := ready_table hready
  intro hcr
  have hfl : run (init s) (evs.take evs.length) = some f := by rw [List.take_length]; exact hf
  obtain ⟨c, o, h1, h2, h3⟩ := current hf evs.length (Nat.le_refl _) g f hfl (by rw [hcr]; simp)
  have hin := inside_call hf h2 _ h1 (Nat.le_refl _) h3 f hfl
  cases o with
  | channel sev =>
    have h := along hf (Q := Same s False) (P := ChanOk s sev)
      (fun i x hi hx => same_all hf (by simp [hl]) False (fun h => h.elim) i hi x hx) h2 (.inl rfl) (by simp [ChanOk])
      (fun x a hx ha => chanOk_step hl h8 x a hx ha) _ h1 (Nat.le_refl _) h3 f hfl
    rw [hcr] at h
    simp [ChanOk] at h
  | sub name =>
    have h := along hf (Q := Same s False) (P := SubOk s False name)
      (fun i x hi hx => same_all hf (by simp [hl]) False (fun h => h.elim) i hi x hx) h2 (.inl rfl) (by simp [SubOk])
      (fun x a hx ha => subOk_step hm x a hx ha) _ h1 (Nat.le_refl _) h3 f hfl
    rw [hcr] at h
    simp [SubOk] at h
  | testMode => rw [hcr] at hin; simp [Inside] at hin
  | log => rw [hcr] at hin; simp [Inside] at hin
  | setNow => rw [hcr] at hin; simp [Inside] at hin

theorem before_call {evs : List Event} {sync : Nat → Nat → Prop} {i j : Nat} (h : Before evs sync i j) :
    (∃ a b, evs[i]? = some a ∧ evs[j]? = some b ∧ a.goroutine = b.goroutine) ∨
      ∃ k g o, i < k ∧ k ≤ j ∧ evs[k]? = some (.call g o) := by
  induction h with
  | program _ h1 h2 h3 => exact .inl ⟨_, _, h1, h2, h3⟩
  | user h _ h2 _ => exact .inr ⟨_, _, _, h, Nat.le_refl _, h2⟩
  | trans p1 p2 h1 h2 =>
    have l1 := before_lt p1
    have l2 := before_lt p2
    rcases h1 with ⟨a, b, h1, h3, h4⟩ | ⟨k, g, o, h3, h4, h5⟩
    · rcases h2 with ⟨c, d, h5, h6, h7⟩ | ⟨k, g, o, h6, h7, h8⟩
      · rw [h3] at h5
        simp only [Option.some.injEq] at h5
        subst h5
        exact .inl ⟨a, d, h1, h6, h4.trans h7⟩
      · exact .inr ⟨k, g, o, by omega, h7, h8⟩
    · exact .inr ⟨k, g, o, h3, by omega, h5⟩

/-- Two goroutines make the first two calls of `Channel`. -/
def demoObjectFirst : List Event := [.call 0 (.channel 0), .call 1 (.channel 0), .step 0, .step 1, .step 0]

/-- C103 is violated for an object fresh from `New`: two goroutines call `Channel` at the same time; one reads the field that the
other writes, and nothing that the program does can order them. -/
theorem C103_first_violated : ∃ s f, Syslog.new (some b!"h") 1 0 7 b!"app" = some s ∧ run (init s) demoObjectFirst = some f ∧
    ∀ sync, DataRace s demoObjectFirst sync 3 4 := by
  refine ⟨⟨0, b!"h", b!"1", b!"app", none, 0, 7⟩, _, by decide +kernel, rfl, fun sync => ?_⟩
  refine ⟨by omega, ⟨_, _, rfl, rfl, by decide⟩, ⟨rd .channels, wr .channels, ⟨_, _, rfl, rfl, ?_⟩, ⟨_, _, rfl, rfl, ?_⟩, rfl, .inr rfl⟩, fun h => ?_⟩
  · decide
  · decide
  · rcases before_call h with ⟨a, b, h1, h2, h3⟩ | ⟨k, g, o, h1, h2, h3⟩
    · simp only [demoObjectFirst, List.getElem?_cons_succ, List.getElem?_cons_zero, Option.some.injEq] at h1 h2
      subst h1; subst h2
      simp [Event.goroutine] at h3
    · have : k = 4 := by omega
      subst this
      simp [demoObjectFirst] at h3

/-- One goroutine calls `SubSyslog`, another one `TestMode`, which runs between the two reads of the first. -/
def demoObjectTorn (u : Syslog) : List Event :=
  [.call 0 (.sub b!"x"), .call 1 .testMode, .step 0, .step 1, .step 1, .ret 1 .unit, .step 0, .step 0, .step 0, .step 0, .ret 0 (.sub u)]

/-- C103 is violated when `TestMode` and `SubSyslog` overlap: there is a race, and the new object has the host name of before with the process
identifier of after, and a channel with the two of after: none of the two orders of the calls gives that. -/
theorem C103_testMode_violated : ∃ s u f, ReadyToShare s ∧ run (init s) (demoObjectTorn u) = some f ∧ u.hostname = b!"h" ∧ u.pid = b!"1234" ∧
    s.subSyslog b!"x" ≠ .ret u ∧ s.testMode.subSyslog b!"x" ≠ .ret u ∧ ∀ sync, DataRace s (demoObjectTorn u) sync 2 3 := by
  refine ⟨⟨0, b!"h", b!"1", b!"app", some (.tru ⟨0, b!"h", b!"1", b!"app", b!"-", 0⟩ :: List.replicate 7 .devNull), 0, 0⟩,
    ⟨0, b!"h", b!"1234", b!"app/x", some (.tru ⟨0, b!"localhost", b!"1234", b!"app/x", b!"-", 0⟩ :: List.replicate 7 .devNull), 0, 0⟩, ?_⟩
  refine ⟨_, ⟨some b!"h", 1, 0, 0, b!"app", ⟨0, b!"h", b!"1", b!"app", none, 0, 0⟩, [], ⟨0, b!"h", b!"1", b!"app", none, 0, 0⟩, by omega,
    by decide +kernel, by rfl, .inl ⟨0, .tru ⟨0, b!"h", b!"1", b!"app", b!"-", 0⟩, by decide +kernel⟩⟩, rfl, rfl, rfl, by decide +kernel,
    by decide +kernel, fun sync => ?_⟩
  refine ⟨by omega, ⟨_, _, rfl, rfl, by decide⟩, ⟨rd .hostname, wr .hostname, ⟨_, _, rfl, rfl, ?_⟩, ⟨_, _, rfl, rfl, ?_⟩, rfl, .inr rfl⟩, fun h => ?_⟩
  · decide
  · decide
  · rcases before_call h with ⟨a, b, h1, h2, h3⟩ | ⟨k, g, o, h1, h2, h3⟩
    · simp only [demoObjectTorn, List.getElem?_cons_succ, List.getElem?_cons_zero, Option.some.injEq] at h1 h2
      subst h1; subst h2
      simp [Event.goroutine] at h3
    · have : k = 3 := by omega
      subst this
      simp [demoObjectTorn] at h3

/-! ### The hypotheses are met -/

/-- An object on which `Channel` was called. -/
def demoObject : Syslog :=
  ⟨0, b!"h", b!"1", b!"app", some (.tru ⟨0, b!"h", b!"1", b!"app", b!"-", 0⟩ :: List.replicate 7 .devNull), 0, 0⟩

theorem demoObject_ready : ReadyToShare demoObject :=
  ⟨some b!"h", 1, 0, 0, b!"app", ⟨0, b!"h", b!"1", b!"app", none, 0, 0⟩, [], ⟨0, b!"h", b!"1", b!"app", none, 0, 0⟩, by omega,
    by decide +kernel, by rfl, .inl ⟨0, .tru ⟨0, b!"h", b!"1", b!"app", b!"-", 0⟩, by decide +kernel⟩⟩

/-- Two goroutines use the object at the same time: `Channel` and `SubSyslog`, interleaved; then, ordered by the program, `TestMode`. -/
def demoObjectTwo : List Event :=
  [.call 0 (.channel 0), .call 1 (.sub b!"x"), .step 0, .step 1, .step 1, .step 0, .step 1,
   .ret 0 (.channel (.tru ⟨0, b!"h", b!"1", b!"app", b!"-", 0⟩)), .step 1, .step 1,
   .ret 1 (.sub ⟨0, b!"h", b!"1", b!"app/x", some (.tru ⟨0, b!"h", b!"1", b!"app/x", b!"-", 0⟩ :: List.replicate 7 .devNull), 0, 0⟩),
   .call 0 .testMode, .step 0, .step 0]

example : ∃ f, run (init demoObject) demoObjectTwo = some f ∧ f.s.hostname = b!"localhost" := ⟨_, rfl, rfl⟩

example : Careful demoObjectTwo (fun i j => i = 10 ∧ j = 11) := by
  intro i j g h a b hi hj hne hx
  have hb : Precedes demoObjectTwo (fun i j => i = 10 ∧ j = 11) 1 11 :=
    ⟨10, ⟨1, _, _, rfl, rfl, by omega, fun k r h1 h2 => by
      obtain rfl | rfl | rfl | rfl | rfl | rfl | rfl | rfl : k = 2 ∨ k = 3 ∨ k = 4 ∨ k = 5 ∨ k = 6 ∨ k = 7 ∨ k = 8 ∨ k = 9 := by omega
      all_goals simp [demoObjectTwo]⟩, .user (by omega) rfl rfl ⟨rfl, rfl⟩⟩
  have him := (List.getElem?_eq_some_iff.mp hi).1
  have hjm := (List.getElem?_eq_some_iff.mp hj).1
  have key : ∀ (i : Nat) g a, demoObjectTwo[i]? = some (.call g a) → i = 0 ∧ g = 0 ∧ a = .channel 0 ∨ i = 1 ∧ g = 1 ∧ a = .sub b!"x" ∨ i = 11 ∧ g = 0 ∧ a = .testMode := by
    intro i g a hi
    have him := (List.getElem?_eq_some_iff.mp hi).1
    simp only [demoObjectTwo, List.length_cons, List.length_nil] at him
    obtain rfl | rfl | rfl | rfl | rfl | rfl | rfl | rfl | rfl | rfl | rfl | rfl | rfl | rfl :
        i = 0 ∨ i = 1 ∨ i = 2 ∨ i = 3 ∨ i = 4 ∨ i = 5 ∨ i = 6 ∨ i = 7 ∨ i = 8 ∨ i = 9 ∨ i = 10 ∨ i = 11 ∨ i = 12 ∨ i = 13 := by omega
    all_goals simp [demoObjectTwo] at hi
    all_goals simp [hi.1.symm, hi.2.symm]
  rcases key i g a hi with ⟨rfl, rfl, rfl⟩ | ⟨rfl, rfl, rfl⟩ | ⟨rfl, rfl, rfl⟩ <;>
    rcases key j h b hj with ⟨rfl, rfl, rfl⟩ | ⟨rfl, rfl, rfl⟩ | ⟨rfl, rfl, rfl⟩ <;> simp [Exclusive] at hx hne
  · exact .inl hb
  · exact .inr hb

/-- The first call of `Channel` on a fresh object, and, after its return, the call of another goroutine. -/
def demoObjectOrdered : List Event :=
  [.call 0 (.channel 0), .step 0, .step 0, .step 0, .step 0, .step 0, .step 0,
   .ret 0 (.channel (.tru ⟨0, b!"h", b!"1", b!"app", b!"-", 0⟩)), .call 1 (.channel 1), .step 1, .step 1, .ret 1 (.channel .devNull)]

example : ∃ s f, Syslog.new (some b!"h") 1 0 0 b!"app" = some s ∧ run (init s) demoObjectOrdered = some f :=
  ⟨⟨0, b!"h", b!"1", b!"app", none, 0, 0⟩, _, by decide +kernel, rfl⟩

example : Precedes demoObjectOrdered (fun i j => i = 7 ∧ j = 8) 0 8 :=
  ⟨7, ⟨0, _, _, rfl, rfl, by omega, fun k r h1 h2 => by
    obtain rfl | rfl | rfl | rfl | rfl | rfl : k = 1 ∨ k = 2 ∨ k = 3 ∨ k = 4 ∨ k = 5 ∨ k = 6 := by omega
    all_goals simp [demoObjectOrdered]⟩, .user (by omega) rfl rfl ⟨rfl, rfl⟩⟩

end Syslog5424
