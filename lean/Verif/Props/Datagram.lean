import Verif.Model.Datagram
import Verif.Props.Receiver
/-! # C56: the datagram listener; C45 on a datagram listener -/
namespace Syslog5424
namespace Spec
open Datagram

/-- A call of `Accept` has returned. -/
def Returned (c : Call) : Prop := c = .conn ∨ c = .error

instance (c : Call) : Decidable (Returned c) := inferInstanceAs (Decidable (_ ∨ _))

/-- In this history no call of `Accept` begins before the others have returned. -/
def OneAtATime (es : List Event) : Prop :=
  ∀ es1 es2 s, es = es1 ++ .begin :: es2 → Datagram.run init es1 = some s → ∀ c ∈ s.calls, Returned c

end Spec
open Spec Datagram

namespace Datagram

theorem run_append (s : State) (es es' : List Event) : run s (es ++ es') = (run s es).bind fun s' => run s' es' := by
  induction es generalizing s with
  | nil => rfl
  | cons e es ih =>
    simp only [List.cons_append, run]
    cases step s e with
    | none => rfl
    | some s' => simpa using ih s'

theorem run_induction {P : List Event → State → Prop} (h0 : P [] init)
    (hs : ∀ es e s s', run init es = some s → P es s → step s e = some s' → P (es ++ [e]) s')
    {es : List Event} {s : State} (h : run init es = some s) : P es s := by
  have gen : ∀ (es pre : List Event) (s1 s : State), run init pre = some s1 → P pre s1 → run s1 es = some s → P (pre ++ es) s := by
    intro es
    induction es with
    | nil =>
      intro pre s1 s _ hp h
      simp only [run, Option.some.injEq] at h
      rw [List.append_nil, ← h]; exact hp
    | cons e es ih =>
      intro pre s1 s hr hp h
      simp only [run] at h
      cases hst : step s1 e with
      | none => rw [hst] at h; simp at h
      | some s2 =>
        rw [hst] at h
        simp only [Option.bind_some] at h
        have hr2 : run init (pre ++ [e]) = some s2 := by
          rw [run_append, hr]; simp [run, hst]
        have := ih (pre ++ [e]) s2 s hr2 (hs pre e s1 s2 hr hp hst) h
        simpa using this
  exact gen es [] init s rfl h0 h

/-- With one call at a time: the first call is the one that tests and sets the flag. -/
structure Seq (s : State) : Prop where
  first : ∀ i c, s.calls[i]? = some c → (c = .conn ∨ c = .assign → i = 0) ∧ (c = .wait ∨ c = .error → 0 < i)
  flag : s.gram.accepted = true ↔ s.calls[0]? = some .conn
  later : ∀ i c, s.calls[i]? = some c → 0 < i → s.gram.accepted = true
  last : ∀ i c, s.calls[i]? = some c → ¬ Returned c → i + 1 = s.calls.length
  ended : ∀ c ∈ s.calls, c = .error → s.gram.ended = true

theorem seq_run {es : List Event} {s : State} (h : run init es = some s) (hseq : OneAtATime es) : Seq s := by
  refine run_induction (P := fun es s => OneAtATime es → Seq s) ?_ ?_ h hseq
  · intro _
    exact ⟨by simp [init], by simp [init], by simp [init], by simp [init], by simp [init]⟩
  · intro es e s s' hr ih hst hseq
    have h1 : OneAtATime es := by
      intro es1 es2 s1 he hr1
      exact hseq es1 (es2 ++ [e]) s1 (by rw [he]; simp) hr1
    obtain ⟨i1, i2, i3, i4, i5⟩ := ih h1
    unfold step at hst
    split at hst
    · simp at hst
    cases e with
    | begin =>
      have hret := hseq es [] s rfl hr
      simp only [Option.some.injEq] at hst
      subst hst
      have key : ∀ i c, (s.calls ++ [Call.test])[i]? = some c → (s.calls[i]? = some c ∧ i < s.calls.length) ∨ (i = s.calls.length ∧ c = .test) := by
        intro i c hi
        rcases Nat.lt_trichotomy i s.calls.length with hl | hl | hl
        · rw [List.getElem?_append_left hl] at hi; exact .inl ⟨hi, hl⟩
        · subst hl; simp at hi; exact .inr ⟨rfl, hi.symm⟩
        · rw [List.getElem?_eq_none (by simp; omega)] at hi; simp at hi
      refine ⟨?_, ?_, ?_, ?_, ?_⟩
      · intro i c hi
        rcases key i c hi with ⟨h, _⟩ | ⟨_, rfl⟩
        · exact i1 i c h
        · simp
      · constructor
        · intro h
          have := i2.mp h
          simp only
          rw [List.getElem?_append_left]
          · exact this
          · rcases Nat.lt_or_ge 0 s.calls.length with h0 | h0
            · exact h0
            · rw [List.getElem?_eq_none (by omega)] at this; simp at this
        · intro h
          rcases key 0 _ h with ⟨h, _⟩ | ⟨_, h⟩
          · exact i2.mpr h
          · simp at h
      · intro i c hi hpos
        rcases key i c hi with ⟨h, _⟩ | ⟨hl, rfl⟩
        · exact i3 i c h hpos
        · -- the first call has returned: with a connection
          have h0 : 0 < s.calls.length := by omega
          obtain ⟨c0, hc0⟩ : ∃ c0, s.calls[0]? = some c0 := ⟨s.calls[0], by simp [h0]⟩
          have hm : c0 ∈ s.calls := List.mem_of_getElem? hc0
          rcases hret c0 hm with rfl | rfl
          · exact i2.mpr hc0
          · have := (i1 0 _ hc0).2 (.inr rfl); omega
      · intro i c hi hnr
        rcases key i c hi with ⟨h, _⟩ | ⟨hl, rfl⟩
        · exact absurd (hret c (List.mem_of_getElem? h)) hnr
        · simp [hl]
      · intro c hc he
        rcases List.mem_append.mp hc with h | h
        · exact i5 c h he
        · simp at h; subst h; simp at he
    | close =>
      simp only at hst
      split at hst
      · next hg =>
        unfold Net.Gram.close at hg
        split at hg <;> simp at hg
        simp only [Option.some.injEq] at hst
        subst hst hg
        exact ⟨i1, i2, i3, i4, fun _ _ _ => rfl⟩
      · simp only [Option.some.injEq] at hst
        subst hst
        exact ⟨i1, i2, i3, i4, i5⟩
    | step i =>
      simp only at hst
      split at hst
      · next hi =>
        simp only [Option.some.injEq] at hst
        subst hst
        have hlen : i < s.calls.length := by
          rcases Nat.lt_or_ge i s.calls.length with h | h
          · exact h
          · rw [List.getElem?_eq_none h] at hi; simp at hi
        have hlast := i4 i _ hi (by simp [Returned])
        have hz : s.gram.accepted = false → i = 0 := by
          intro h
          rcases Nat.eq_zero_or_pos i with h0 | hne
          · exact h0
          · have := i3 i _ hi hne; rw [h] at this; simp at this
        have hacc : s.gram.accepted = true → 0 < i := by
          intro h
          rcases Nat.eq_zero_or_pos i with rfl | h'
          · rw [i2.mp h] at hi; simp at hi
          · exact h'
        have key : ∀ j c, (s.calls.set i (if s.gram.accepted then Call.wait else .assign))[j]? = some c →
            (j ≠ i ∧ s.calls[j]? = some c) ∨ (j = i ∧ c = if s.gram.accepted then Call.wait else .assign) := by
          intro j c hj
          by_cases hij : j = i
          · subst hij; rw [List.getElem?_set_self hlen] at hj; exact .inr ⟨rfl, by simpa using hj.symm⟩
          · rw [List.getElem?_set_ne (Ne.symm hij)] at hj; exact .inl ⟨hij, hj⟩
        refine ⟨?_, ?_, ?_, ?_, ?_⟩
        · intro j c hj
          rcases key j c hj with ⟨_, h⟩ | ⟨rfl, rfl⟩
          · exact i1 j c h
          · cases hg : s.gram.accepted with
            | true => simp; exact hacc hg
            | false => simp; exact hz hg
        · constructor
          · intro h
            have h0 := hacc h
            simp only
            rw [List.getElem?_set_ne (by omega)]; exact i2.mp h
          · intro h
            rcases key 0 _ h with ⟨_, h⟩ | ⟨_, h⟩
            · exact i2.mpr h
            · split at h <;> simp at h
        · intro j c hj hpos
          rcases key j c hj with ⟨_, h⟩ | ⟨rfl, rfl⟩
          · exact i3 j c h hpos
          · exact i3 _ _ hi hpos
        · intro j c hj hnr
          simp only [List.length_set]
          rcases key j c hj with ⟨_, h⟩ | ⟨rfl, rfl⟩
          · exact i4 j c h hnr
          · exact hlast
        · intro c hc he
          rcases List.mem_or_eq_of_mem_set hc with h | h
          · exact i5 c h he
          · subst h; split at he <;> simp at he
      · next hi =>
        simp only [Option.some.injEq] at hst
        subst hst
        have hlen : i < s.calls.length := by
          rcases Nat.lt_or_ge i s.calls.length with h | h
          · exact h
          · rw [List.getElem?_eq_none h] at hi; simp at hi
        have hi0 : i = 0 := (i1 i _ hi).1 (.inr rfl)
        have hlast := i4 i _ hi (by simp [Returned])
        subst hi0
        refine ⟨?_, ?_, ?_, ?_, ?_⟩
        · intro j c hj
          rcases Nat.eq_zero_or_pos j with rfl | hj0
          · rw [List.getElem?_set_self hlen] at hj; simp at hj; subst hj; simp
          · rw [List.getElem?_set_ne (by omega)] at hj; exact i1 j c hj
        · simp [List.getElem?_set_self hlen]
        · intros; rfl
        · intro j c hj hnr
          simp only [List.length_set]
          rcases Nat.eq_zero_or_pos j with rfl | hj0
          · exact hlast
          · rw [List.getElem?_set_ne (by omega)] at hj; exact i4 j c hj hnr
        · intro c hc he
          rcases List.mem_or_eq_of_mem_set hc with h | h
          · exact i5 c h he
          · subst h; simp at he
      · next hi =>
        split at hst
        · next hend =>
          simp only [Option.some.injEq] at hst
          subst hst
          have hlen : i < s.calls.length := by
            rcases Nat.lt_or_ge i s.calls.length with h | h
            · exact h
            · rw [List.getElem?_eq_none h] at hi; simp at hi
          have hpos : 0 < i := (i1 i _ hi).2 (.inl rfl)
          refine ⟨?_, ?_, ?_, ?_, ?_⟩
          · intro j c hj
            by_cases hij : j = i
            · subst hij; rw [List.getElem?_set_self hlen] at hj; simp at hj; subst hj; simp; exact hpos
            · rw [List.getElem?_set_ne (Ne.symm hij)] at hj; exact i1 j c hj
          · simp only; rw [List.getElem?_set_ne (by omega)]; exact i2
          · intro j c hj h0
            exact i3 i _ hi hpos
          · intro j c hj hnr
            simp only [List.length_set]
            by_cases hij : j = i
            · subst hij; exact i4 j _ hi (by simp [Returned])
            · rw [List.getElem?_set_ne (Ne.symm hij)] at hj; exact i4 j c hj hnr
          · intro c hc he; exact hend
        · simp at hst
      · simp at hst

end Datagram

/-- **C56.** When `Accept` is called by one goroutine at a time (as the receiver does), then in every history: only the
first call returns a connection, only later calls return an error, and only after `Close`. -/
theorem C56_once_partial (es : List Datagram.Event) (s : Datagram.State) (h : Datagram.run Datagram.init es = some s) (hseq : OneAtATime es)
    (i : Nat) (c : Call) (hi : s.calls[i]? = some c) :
    (c = .conn → i = 0) ∧ (c = .error → 0 < i ∧ Datagram.Event.close ∈ es) := by
  have hs := Datagram.seq_run h hseq
  refine ⟨fun hc => (hs.first i c hi).1 (.inl hc), fun hc => ⟨(hs.first i c hi).2 (.inr hc), ?_⟩⟩
  have he := hs.ended c (List.mem_of_getElem? hi) hc
  refine Datagram.run_induction (P := fun es s => s.gram.ended = true → Datagram.Event.close ∈ es) (by simp [Datagram.init]) ?_ h he
  intro es e s s' _ ih hst he
  cases e with
  | close => simp
  | «begin» =>
    unfold Datagram.step at hst
    split at hst
    · simp at hst
    simp only [Option.some.injEq] at hst
    subst hst
    simp [ih he]
  | step i =>
    have : s'.gram.ended = s.gram.ended := by
      unfold Datagram.step at hst
      split at hst
      · simp at hst
      simp only at hst
      split at hst
      · simp only [Option.some.injEq] at hst; subst hst; rfl
      · simp only [Option.some.injEq] at hst; subst hst; rfl
      · split at hst
        · simp only [Option.some.injEq] at hst; subst hst; rfl
        · simp at hst
      · simp at hst
    rw [this] at he
    simp [ih he]

/-- **C56.** The first call returns a connection at once, before and after `Close`; nothing can keep it waiting. A later
call cannot return as long as `Close` was not called, and can as soon as it was. -/
theorem C56_blocks_partial (es : List Datagram.Event) (s : Datagram.State) (h : Datagram.run Datagram.init es = some s) (hseq : OneAtATime es)
    (hc : s.crashed = false) (i : Nat) (c : Call) (hi : s.calls[i]? = some c) (hnr : ¬ Returned c) :
    if i = 0 then ∃ s1, (Datagram.run s [.step i] = some s1 ∨ Datagram.run s [.step i, .step i] = some s1) ∧ s1.calls[i]? = some .conn
    else if s.gram.ended = true then
      ∃ s1, (Datagram.run s [.step i] = some s1 ∨ Datagram.run s [.step i, .step i] = some s1) ∧ s1.calls[i]? = some .error
    else ∀ es' s', Datagram.run s es' = some s' → Datagram.Event.close ∉ es' → ∀ c', s'.calls[i]? = some c' → ¬ Returned c' := by
  have hs := Datagram.seq_run h hseq
  have hlen : i < s.calls.length := by
    rcases Nat.lt_or_ge i s.calls.length with h | h
    · exact h
    · rw [List.getElem?_eq_none h] at hi; simp at hi
  split
  · next h0 =>
    subst h0
    have hacc : s.gram.accepted = false := by
      cases hg : s.gram.accepted with
      | false => rfl
      | true =>
        have := hs.flag.mp hg
        rw [hi] at this; simp at this; exact absurd (.inl this) hnr
    cases c with
    | test =>
      refine ⟨{ s with gram := { s.gram with accepted := true }, calls := s.calls.set 0 .conn }, .inr ?_, by simp [hlen]⟩
      have e1 : Datagram.step s (.step 0) = some { s with calls := s.calls.set 0 .assign } := by simp only [Datagram.step, hc, hi, hacc]; rfl
      simp only [Datagram.run, e1, Option.bind_some]
      simp [Datagram.step, hc, hlen]
    | assign =>
      refine ⟨{ s with gram := { s.gram with accepted := true }, calls := s.calls.set 0 .conn }, .inl ?_, by simp [hlen]⟩
      simp [Datagram.run, Datagram.step, hc, hi]
    | wait => have := (hs.first 0 _ hi).2 (.inl rfl); omega
    | conn => exact absurd (.inl rfl) hnr
    | error => exact absurd (.inr rfl) hnr
  · next h0 =>
    have hacc := hs.later i c hi (by omega)
    split
    · next hend =>
      cases c with
      | test =>
        refine ⟨{ s with calls := s.calls.set i .error }, .inr ?_, by simp [hlen]⟩
        have e1 : Datagram.step s (.step i) = some { s with calls := s.calls.set i .wait } := by simp only [Datagram.step, hc, hi, hacc]; rfl
        simp only [Datagram.run, e1, Option.bind_some]
        simp [Datagram.step, hc, hlen, hend]
      | wait =>
        refine ⟨{ s with calls := s.calls.set i .error }, .inl ?_, by simp [hlen]⟩
        simp [Datagram.run, Datagram.step, hc, hi, hend]
      | assign => have := (hs.first i _ hi).1 (.inr rfl); omega
      | conn => exact absurd (.inl rfl) hnr
      | error => exact absurd (.inr rfl) hnr
    · next hend =>
      have gen : ∀ (es' : List Datagram.Event) (s s' : Datagram.State), Datagram.run s es' = some s' → Datagram.Event.close ∉ es' →
          s.gram.ended = false → s.gram.accepted = true → i < s.calls.length → (s.calls[i]? = some .test ∨ s.calls[i]? = some .wait) →
          (s'.calls[i]? = some .test ∨ s'.calls[i]? = some .wait) := by
        intro es'
        induction es' with
        | nil => intro s s' hr _ _ _ _ h; simp only [Datagram.run, Option.some.injEq] at hr; rwa [← hr]
        | cons e es' ih =>
          intro s s' hr hn he ha hl hw
          simp only [Datagram.run] at hr
          cases hst : Datagram.step s e with
          | none => rw [hst] at hr; simp at hr
          | some s1 =>
            rw [hst] at hr
            simp only [Option.bind_some] at hr
            unfold Datagram.step at hst
            split at hst
            · simp at hst
            cases e with
            | close => simp at hn
            | «begin» =>
              simp only [Option.some.injEq] at hst
              subst hst
              refine ih _ s' hr (by simp at hn; exact hn) he ha (by simp; omega) ?_
              simp only
              rw [List.getElem?_append_left hl]; exact hw
            | step j =>
              simp only at hst
              have hn' : Datagram.Event.close ∉ es' := by simp at hn; exact hn
              split at hst
              · next hj =>
                simp only [Option.some.injEq] at hst
                subst hst
                refine ih _ s' hr hn' he ha (by simpa using hl) ?_
                simp only
                by_cases hij : j = i
                · subst hij; simp [hl]
                · rw [List.getElem?_set_ne hij]; exact hw
              · next hj =>
                simp only [Option.some.injEq] at hst
                subst hst
                have hij : j ≠ i := by rintro rfl; rw [hj] at hw; simp at hw
                refine ih _ s' hr hn' he rfl (by simpa using hl) ?_
                simp only
                rw [List.getElem?_set_ne hij]; exact hw
              · rw [he] at hst; simp at hst
              · simp at hst
      intro es' s' hr hn c' hc'
      have hw : s.calls[i]? = some .test ∨ s.calls[i]? = some .wait := by
        cases c with
        | test => exact .inl hi
        | wait => exact .inr hi
        | assign => have := (hs.first i _ hi).1 (.inr rfl); omega
        | conn => exact absurd (.inl rfl) hnr
        | error => exact absurd (.inr rfl) hnr
      have := gen es' s s' hr hn (by simpa using hend) hacc hlen hw
      rcases this with h | h <;> rw [hc'] at h <;> simp at h <;> subst h <;> simp [Returned]

/-- The hypotheses hold: a second call that waits. -/
example : ∃ s, Datagram.run Datagram.init [.begin, .step 0, .step 0, .begin, .step 1] = some s ∧ s.crashed = false ∧
    s.calls = [.conn, .wait] ∧ s.gram.ended = false := ⟨_, rfl, rfl, rfl, rfl⟩

/-- **C56.** A call that no other call interrupts does what the first one must do, what a later one must do after `Close`,
and what a later one must do before: it returns a connection and leaves the listener used, returns an error, or waits. The
function `Gram.accept`, used where only the receiver calls `Accept`, says the same. -/
theorem C56_uninterrupted (s : Datagram.State) (hc : s.crashed = false) :
    (s.gram.accepted = false → s.gram.accept = (.conn, { s.gram with accepted := true }) ∧
      Datagram.run s [.begin, .step s.calls.length, .step s.calls.length] =
        some { s with gram := { s.gram with accepted := true }, calls := s.calls ++ [.conn] }) ∧
    (s.gram.accepted = true → s.gram.ended = true → s.gram.accept = (.error, s.gram) ∧
      Datagram.run s [.begin, .step s.calls.length, .step s.calls.length] = some { s with calls := s.calls ++ [.error] }) ∧
    (s.gram.accepted = true → s.gram.ended = false → s.gram.accept = (.blocks, s.gram) ∧
      Datagram.run s [.begin, .step s.calls.length] = some { s with calls := s.calls ++ [.wait] } ∧
      Datagram.run s [.begin, .step s.calls.length, .step s.calls.length] = none) := by
  refine ⟨fun ha => ?_, fun ha he => ?_, fun ha he => ?_⟩ <;>
    simp [Net.Gram.accept, Datagram.run, Datagram.step, *]

/-- **C56 fails** when two goroutines call `Accept`: the flag is not protected, and both get a connection (on the same
socket). -/
theorem C56_race_violated : ∃ s, Datagram.run Datagram.init [.begin, .begin, .step 0, .step 1, .step 0, .step 1] = some s ∧
    s.calls = [.conn, .conn] := ⟨_, rfl, rfl⟩

/-- **C56 fails** for a listener that is closed twice: the second `Close` crashes the program, from every state. -/
theorem C56_double_close_violated (es : List Datagram.Event) (s : Datagram.State) (h : Datagram.run Datagram.init es = some s)
    (hc : s.crashed = false) (hcl : Datagram.Event.close ∈ es) : ∃ s', Datagram.step s .close = some s' ∧ s'.crashed = true := by
  have key : Datagram.Event.close ∈ es → s.gram.ended = true := by
    refine Datagram.run_induction (P := fun es s => Datagram.Event.close ∈ es → s.gram.ended = true) (by simp) ?_ h
    intro es e s s' _ ih hst hm
    unfold Datagram.step at hst
    split at hst
    · simp at hst
    cases e with
    | close =>
      simp only at hst
      split at hst
      · next hg =>
        unfold Net.Gram.close at hg
        split at hg <;> simp at hg
        simp only [Option.some.injEq] at hst
        subst hst hg; rfl
      · next hg =>
        simp only [Option.some.injEq] at hst
        subst hst
        unfold Net.Gram.close at hg
        simp only
        cases he : s.gram.ended with
        | true => rfl
        | false => rw [if_neg (by simp [he])] at hg; exact absurd rfl (hg _)
    | «begin» =>
      simp only [Option.some.injEq] at hst
      subst hst
      exact ih (by simpa using hm)
    | step j =>
      have hm' : Datagram.Event.close ∈ es := by simpa using hm
      simp only at hst
      split at hst
      · simp only [Option.some.injEq] at hst; subst hst; exact ih hm'
      · simp only [Option.some.injEq] at hst; subst hst; exact ih hm'
      · split at hst
        · simp only [Option.some.injEq] at hst; subst hst; exact ih hm'
        · simp at hst
      · simp at hst
  refine ⟨{ s with crashed := true }, ?_, rfl⟩
  simp [Datagram.step, hc, Net.Gram.close, key hcl]

/-! ## A receiver on a datagram listener -/

namespace Datagram

theorem sys_run_append (t : Transport) (n : Nat) (s : Sys) (es es' : List SysEvent) :
    Sys.run t n s (es ++ es') = (Sys.run t n s es).bind fun s' => Sys.run t n s' es' := by
  induction es generalizing s with
  | nil => rfl
  | cons e es ih =>
    simp only [List.cons_append, Sys.run]
    cases s.step t n e with
    | none => rfl
    | some s' => simpa using ih s'

theorem sys_run_induction {t : Transport} {n : Nat} {s0 : Sys} {P : List SysEvent → Sys → Prop} (h0 : P [] s0)
    (hs : ∀ es e s s', Sys.run t n s0 es = some s → P es s → s.step t n e = some s' → P (es ++ [e]) s')
    {es : List SysEvent} {s : Sys} (h : Sys.run t n s0 es = some s) : P es s := by
  have gen : ∀ (es pre : List SysEvent) (s1 s : Sys), Sys.run t n s0 pre = some s1 → P pre s1 → Sys.run t n s1 es = some s → P (pre ++ es) s := by
    intro es
    induction es with
    | nil =>
      intro pre s1 s _ hp h
      simp only [Sys.run, Option.some.injEq] at h
      rw [List.append_nil, ← h]; exact hp
    | cons e es ih =>
      intro pre s1 s hr hp h
      simp only [Sys.run] at h
      cases hst : s1.step t n e with
      | none => rw [hst] at h; simp at h
      | some s2 =>
        rw [hst] at h
        simp only [Option.bind_some] at h
        have hr2 : Sys.run t n s0 (pre ++ [e]) = some s2 := by
          rw [sys_run_append, hr]; simp [Sys.run, hst]
        have := ih (pre ++ [e]) s2 s hr2 (hs pre e s1 s2 hr hp hst) h
        simpa using this
  exact gen es [] s0 s rfl h0 h

/-- No step but those of `runQueue` moves `runQueue` or closes the pipeline. -/
theorem recv_pc {t : Transport} {n : Nat} {s s' : Recv.State} {e : Recv.Event} (h : Recv.step t n s e = some s')
    (h1 : e ≠ .tau) (h2 : e ≠ .acceptOk) (h3 : e ≠ .acceptErr) : s'.pc = s.pc ∧ s'.pipelineClosed = s.pipelineClosed := by
  unfold Recv.step at h
  split at h
  · simp at h
  cases e <;> first | exact absurd rfl h1 | exact absurd rfl h2 | exact absurd rfl h3 | skip
  all_goals simp only at h; repeat' (split at h)
  all_goals first
    | (simp at h; done)
    | (simp only [Option.some.injEq] at h; subst h; exact ⟨rfl, rfl⟩)

end Datagram

/-- **C45 fails** on a datagram listener: once `runQueue` has taken the one connection and is inside `Accept` again, then
as long as the program does not close the listener itself, whatever happens and even after `End`, `runQueue` stays
there: the listener is never closed, the pipeline is never closed, `Receive` never reports the end. -/
theorem C45_datagram_violated (t : Transport) (lenQueue : Nat) (s : Sys) (hpc : s.recv.pc = .accept) (hacc : s.gram.accepted = true)
    (hopen : s.gram.ended = false) (hcl : s.recv.pipelineClosed = false) (es : List SysEvent) (s' : Sys)
    (h : Sys.run t lenQueue s es = some s') (huser : SysEvent.userClose ∉ es) :
    s'.recv.pc = .accept ∧ s'.gram.ended = false ∧ s'.recv.pipelineClosed = false ∧ s'.step t lenQueue (.recv .recvClosed) = none := by
  have key : s'.recv.pc = .accept ∧ s'.gram = s.gram ∧ s'.recv.pipelineClosed = false := by
    refine sys_run_induction (P := fun es s' => SysEvent.userClose ∉ es → s'.recv.pc = .accept ∧ s'.gram = s.gram ∧ s'.recv.pipelineClosed = false)
      (fun _ => ⟨hpc, rfl, hcl⟩) ?_ h huser
    intro es e s1 s2 _ ih hst hn
    obtain ⟨i1, i2, i3⟩ := ih (fun hm => hn (by simp [hm]))
    have hga : s1.gram.accept = (.blocks, s1.gram) := by
      unfold Net.Gram.accept; rw [i2, hacc, hopen]; rfl
    unfold Sys.step at hst
    split at hst
    · rw [hga] at hst; simp at hst
    · rw [hga] at hst; simp at hst
    · rw [if_neg (by rw [i1]; simp)] at hst
      have : Recv.step t lenQueue s1.recv .tau = none := by
        unfold Recv.step; split
        · rfl
        · simp only [i1]
      rw [this] at hst; simp at hst
    · next e' h1 h2 h3 =>
      cases hr : Recv.step t lenQueue s1.recv e' with
      | none => rw [hr] at hst; simp at hst
      | some r =>
        rw [hr] at hst
        simp only [Option.map_some, Option.some.injEq] at hst
        subst hst
        obtain ⟨a, b⟩ := recv_pc hr h3 h1 h2
        exact ⟨by rw [a]; exact i1, i2, by rw [b]; exact i3⟩
    · simp at hn
  refine ⟨key.1, by rw [key.2.1]; exact hopen, key.2.2, ?_⟩
  simp [Sys.step, Recv.step, key.2.2]

/-- The state of `C45_datagram_violated` is the one every receiver on a datagram listener gets to by itself, unless `End`
is called before. -/
example (t : Transport) (n : Nat) : ∃ s, Sys.run t n Sys.init [.recv .tau, .recv .acceptOk, .recv .tau] = some s ∧
    s.recv.pc = .accept ∧ s.gram.accepted = true ∧ s.gram.ended = false ∧ s.recv.pipelineClosed = false := ⟨_, rfl, rfl, rfl, rfl, rfl⟩

/-- **C46 fails** on a datagram listener that the program closes to get `runQueue` out of `Accept`: `Accept` returns an
error, `runQueue` starts a goroutine for a connection that does not exist, and as soon as it runs the program crashes. -/
theorem C46_datagram_close_violated (t : Transport) (lenQueue : Nat) (s : Sys) (hpc : s.recv.pc = .accept) (hacc : s.gram.accepted = true)
    (hopen : s.gram.ended = false) (hcr : s.recv.crashed = false) (herr : s.recv.errs < 10) :
    ∃ s', Sys.run t lenQueue s [.userClose, .recv .acceptErr, .recv .tau, .recv .nilStart] = some s' ∧ s'.recv.crashed = true := by
  refine ⟨⟨{ s.recv with errs := s.recv.errs + 1, nilConns := s.recv.nilConns + 1, pc := .select, crashed := true }, { s.gram with ended := true }⟩, ?_, rfl⟩
  simp [Sys.run, Sys.step, Sys.close, Net.Gram.close, Net.Gram.accept, Recv.step, hpc, hacc, hopen, hcr, Recv.errCap, herr]

/-- **C45 fails** on a datagram listener that the program closes itself before the receiver ends: the deferred `Close` of
the receiver is then the second one, and crashes the program. -/
theorem C45_datagram_double_close_violated (t : Transport) (lenQueue : Nat) :
    ∃ s', Sys.run t lenQueue Sys.init [.recv .tau, .recv .acceptOk, .recv .endCall, .userClose, .recv .tau, .recv .tau, .recv .tau] = some s' ∧
      s'.recv.crashed = true := ⟨_, rfl, rfl⟩

/-- **C45** does hold on a datagram listener if `End` is called before `runQueue` asks for a second connection and there is
nothing to deliver any more: the pipeline and the listener are closed. -/
theorem C45_datagram_early_partial (t : Transport) (lenQueue : Nat) (s : Sys) (hpc : s.recv.pc = .select) (hend : s.recv.ended = true)
    (hcr : s.recv.crashed = false) (hopen : s.gram.ended = false) :
    ∃ s', Sys.run t lenQueue s [.recv .tau, .recv .tau, .recv .tau] = some s' ∧ s'.recv.crashed = false ∧ s'.recv.pc = .done ∧
      s'.recv.pipelineClosed = true ∧ s'.gram.ended = true := by
  refine ⟨⟨{ s.recv with pc := .done, pipelineClosed := true }, { s.gram with ended := true }⟩, ?_, hcr, rfl, rfl, rfl⟩
  simp [Sys.run, Sys.step, Sys.close, Net.Gram.close, Recv.step, hpc, hend, hopen, hcr]

end Syslog5424
