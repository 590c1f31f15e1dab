import Verif.Spec.Receiver
import Verif.Lemmas.Tokenizer
/-! # Lemmas about histories of a receiver -/
namespace Syslog5424.Recv
open Spec

theorem run_append (t : Transport) (n : Nat) (s : State) (a b : List Event) :
    run t n s (a ++ b) = (run t n s a).bind fun s' => run t n s' b := by
  induction a generalizing s with
  | nil => rfl
  | cons e r ih =>
    simp only [List.cons_append, run]
    cases step t n s e with
    | none => rfl
    | some s' => exact ih s'

theorem run_snoc {t : Transport} {n : Nat} {s s' : State} {es : List Event} {e : Event} (h : run t n s (es ++ [e]) = some s') :
    ∃ s1, run t n s es = some s1 ∧ step t n s1 e = some s' := by
  rw [run_append] at h
  cases h1 : run t n s es with
  | none => rw [h1] at h; simp at h
  | some s1 =>
    rw [h1] at h
    refine ⟨s1, rfl, ?_⟩
    simp only [Option.bind_some, run] at h
    cases h2 : step t n s1 e with
    | none => rw [h2] at h; simp at h
    | some s2 => rw [h2] at h; simpa using h

/-- Induction on the end of a history. -/
theorem run_induction {t : Transport} {n : Nat} {s0 : State} {P : List Event → State → Prop} (h0 : P [] s0)
    (hs : ∀ es e s s', run t n s0 es = some s → P es s → step t n s e = some s' → P (es ++ [e]) s')
    {es : List Event} {s : State} (h : run t n s0 es = some s) : P es s := by
  have gen : ∀ (es pre : List Event) (s1 s : State), run t n s0 pre = some s1 → P pre s1 → run t n s1 es = some s → P (pre ++ es) s := by
    intro es
    induction es with
    | nil =>
      intro pre s1 s _ hp h
      simp only [run, Option.some.injEq] at h
      rw [← h, List.append_nil]; exact hp
    | cons e r ih =>
      intro pre s1 s hpre hp h
      simp only [run] at h
      cases hst : step t n s1 e with
      | none => rw [hst] at h; simp at h
      | some s2 =>
        rw [hst] at h
        have h1 : run t n s0 (pre ++ [e]) = some s2 := by
          rw [run_append, hpre]; simp [run, hst]
        have := ih (pre ++ [e]) s2 s h1 (hs pre e s1 s2 hpre hp hst) (by simpa using h)
        simpa using this
  exact gen es [] s0 s rfl h0 h

theorem tok_run_append {t : Transport} {s s' : Tok.State} {rs : List Tok.Read} {r : Tok.Read} {b : Bool} {s2 : Tok.State}
    (h : Tok.Run t s rs (.ret (true, s'))) (hf : r.Fits s') (hs : Tok.step t s' r = .ret (b, s2)) :
    Tok.Run t s (rs ++ [r]) (.ret (b, s2)) := by
  generalize ho : (Out.ret (true, s') : Out (Bool × Tok.State)) = o at h
  induction h with
  | nil =>
    simp only [Out.ret.injEq, Prod.mk.injEq, true_and] at ho
    subst ho
    cases b with
    | true => exact .cons hf hs .nil
    | false => exact .last hf hs (by simp)
  | cons hf1 hs1 _ ih => exact .cons hf1 hs1 (ih ho)
  | last _ _ hn => exact absurd ho.symm (hn _)

@[simp] theorem readsOf_nil (i : Nat) : readsOf i [] = [] := rfl
@[simp] theorem readsOf_append (i : Nat) (a b : List Event) : readsOf i (a ++ b) = readsOf i a ++ readsOf i b := by
  simp [readsOf]
@[simp] theorem ofConn_nil (i : Nat) : ofConn i [] = [] := rfl
@[simp] theorem ofConn_append (i : Nat) (a b : List (Nat × Tok.Delivered)) : ofConn i (a ++ b) = ofConn i a ++ ofConn i b := by
  simp [ofConn]
theorem ofConn_one (i j : Nat) (d : Tok.Delivered) : ofConn i [(j, d)] = if j = i then [d] else [] := by
  by_cases h : j = i <;> simp [ofConn, h]
theorem ofConn_cons (i : Nat) (x : Nat × Tok.Delivered) (l : List (Nat × Tok.Delivered)) :
    ofConn i (x :: l) = ofConn i [x] ++ ofConn i l := ofConn_append i [x] l

/-- What holds of connection `i` after the history `es`. -/
structure ConnInv (t : Transport) (es : List Event) (s : State) (i : Nat) (c : Conn) : Prop where
  run : Tok.Run t Tok.init (readsOf i es) (.ret (c.running, c.tok))
  mem : Tok.Mem c.tok
  out : ofConn i s.got ++ ofConn i s.pipeline ++ c.pending = c.tok.out

structure Inv (t : Transport) (es : List Event) (s : State) : Prop where
  conn : ∀ i c, s.conns[i]? = some c → ConnInv t es s i c
  none : ∀ i, s.conns.length ≤ i → ofConn i s.got = [] ∧ ofConn i s.pipeline = [] ∧ readsOf i es = []

theorem inv_init (t : Transport) : Inv t [] init := by
  refine ⟨by simp [init], by simp [init]⟩

/-- An event that changes neither the connections nor the pairs. -/
theorem inv_keep {t : Transport} {es : List Event} {e : Event} {s s' : State} (h : Inv t es s) (h1 : s'.conns = s.conns)
    (h2 : s'.got = s.got) (h3 : s'.pipeline = s.pipeline) (h4 : ∀ i, readsOf i [e] = []) : Inv t (es ++ [e]) s' := by
  refine ⟨fun i c hc => ?_, fun i hi => ?_⟩
  · rw [h1] at hc
    obtain ⟨a, b, d⟩ := h.conn i c hc
    exact ⟨by rw [readsOf_append, h4, List.append_nil]; exact a, b, by rw [h2, h3]; exact d⟩
  · rw [h1] at hi
    rw [h2, h3, readsOf_append, h4, List.append_nil]; exact h.none i hi

theorem inv_step {t : Transport} {n : Nat} {es : List Event} {e : Event} {s s' : State} (h : Inv t es s)
    (hs : step t n s e = some s') (hc : s'.crashed = false) : Inv t (es ++ [e]) s' := by
  unfold step at hs
  split at hs
  · simp at hs
  cases e with
  | tau =>
    simp only at hs
    split at hs
    · simp only [Option.some.injEq] at hs; subst hs; exact inv_keep h rfl rfl rfl (fun _ => rfl)
    · split at hs
      · simp only [Option.some.injEq] at hs; subst hs; exact inv_keep h rfl rfl rfl (fun _ => rfl)
      · simp at hs
    · simp only [Option.some.injEq] at hs; subst hs; exact inv_keep h rfl rfl rfl (fun _ => rfl)
    · simp only [Option.some.injEq] at hs; subst hs; exact inv_keep h rfl rfl rfl (fun _ => rfl)
    · simp at hs
  | acceptOk =>
    simp only at hs
    split at hs
    · simp only [Option.some.injEq] at hs
      subst hs
      refine ⟨fun i c hic => ?_, fun i hi => ?_⟩
      · simp only at hic ⊢
        rcases Nat.lt_trichotomy i s.conns.length with hlt | heq | hgt
        · rw [List.getElem?_append_left hlt] at hic
          obtain ⟨a, b, d⟩ := h.conn i c hic
          exact ⟨by rw [readsOf_append]; simpa [readsOf] using a, b, d⟩
        · subst heq
          simp at hic
          subst hic
          obtain ⟨a, b, d⟩ := h.none s.conns.length (Nat.le_refl _)
          refine ⟨?_, Tok.mem_init, ?_⟩
          · rw [readsOf_append, d]; exact .nil
          · simp only [a, b]; rfl
        · rw [List.getElem?_eq_none (by simp; omega)] at hic; simp at hic
      · simp only [List.length_append, List.length_singleton] at hi ⊢
        obtain ⟨a, b, d⟩ := h.none i (by omega)
        exact ⟨a, b, by rw [readsOf_append, d]; rfl⟩
    · simp at hs
  | acceptErr =>
    simp only at hs
    split at hs
    · simp only [Option.some.injEq] at hs; subst hs; exact inv_keep h rfl rfl rfl (fun _ => rfl)
    · simp at hs
  | nilStart =>
    simp only at hs
    split at hs
    · simp only [Option.some.injEq] at hs; subst hs; simp at hc
    · simp at hs
  | read i r =>
    simp only at hs
    split at hs
    · simp at hs
    rename_i c hic
    split at hs
    rotate_left
    · simp at hs
    rename_i hg
    obtain ⟨g1, g2, g3, g4⟩ := hg
    split at hs
    · rename_i b tok hst
      simp only [Option.some.injEq] at hs
      subst hs
      have hlt : i < s.conns.length := (List.getElem?_eq_some_iff.mp hic).1
      have hpend : c.pending = [] := List.eq_nil_of_length_eq_zero g2
      obtain ⟨ha, hb, hd⟩ := h.conn i c hic
      obtain ⟨hm, hpre⟩ := Tok.step_mem hb g4 hst
      refine ⟨fun j c' hj => ?_, fun j hj => ?_⟩
      · simp only [State.setConn] at hj ⊢
        by_cases hij : i = j
        · subst hij
          rw [List.getElem?_set_self hlt] at hj
          simp only [Option.some.injEq] at hj
          subst hj
          refine ⟨?_, hm, ?_⟩
          · rw [readsOf_append]
            have : readsOf i [Event.read i r] = [r] := by simp [readsOf]
            rw [this]
            rw [g1] at ha
            exact tok_run_append ha g4 hst
          · simp only
            rw [hpend, List.append_nil] at hd
            rw [hd]
            obtain ⟨x, hx⟩ := hpre
            rw [← hx, List.drop_left]
        · rw [List.getElem?_set_ne hij] at hj
          obtain ⟨a, b', d⟩ := h.conn j c' hj
          refine ⟨?_, b', d⟩
          rw [readsOf_append]
          have : readsOf j [Event.read i r] = [] := by simp [readsOf, hij]
          rw [this, List.append_nil]; exact a
      · simp only [State.setConn, List.length_set] at hj ⊢
        obtain ⟨a, b', d⟩ := h.none j hj
        refine ⟨a, b', ?_⟩
        rw [readsOf_append, d]
        have : i ≠ j := by omega
        simp [readsOf, this]
    · simp only [Option.some.injEq] at hs; subst hs; simp at hc
    · simp at hs
  | sendErr i =>
    simp only at hs
    split at hs
    · simp at hs
    rename_i c hic
    split at hs
    rotate_left
    · simp at hs
    simp only [Option.some.injEq] at hs
    subst hs
    have hlt : i < s.conns.length := (List.getElem?_eq_some_iff.mp hic).1
    refine ⟨fun j c' hj => ?_, fun j hj => ?_⟩
    · simp only [State.setConn] at hj ⊢
      by_cases hij : i = j
      · subst hij
        rw [List.getElem?_set_self hlt] at hj
        simp only [Option.some.injEq] at hj
        subst hj
        obtain ⟨a, b, d⟩ := h.conn i c hic
        exact ⟨by rw [readsOf_append]; simpa [readsOf] using a, b, d⟩
      · rw [List.getElem?_set_ne hij] at hj
        obtain ⟨a, b, d⟩ := h.conn j c' hj
        exact ⟨by rw [readsOf_append]; simpa [readsOf] using a, b, d⟩
    · simp only [State.setConn, List.length_set] at hj ⊢
      obtain ⟨a, b, d⟩ := h.none j hj
      exact ⟨a, b, by rw [readsOf_append, d]; rfl⟩
  | sendMsg i =>
    simp only at hs
    split at hs
    · simp at hs
    rename_i c hic
    split at hs
    · simp at hs
    rename_i d r hp
    split at hs
    · simp at hs
    split at hs
    · simp only [Option.some.injEq] at hs; subst hs; simp at hc
    split at hs
    rotate_left
    · simp at hs
    simp only [Option.some.injEq] at hs
    subst hs
    have hlt : i < s.conns.length := (List.getElem?_eq_some_iff.mp hic).1
    refine ⟨fun j c' hj => ?_, fun j hj => ?_⟩
    · simp only [State.setConn] at hj ⊢
      by_cases hij : i = j
      · subst hij
        rw [List.getElem?_set_self hlt] at hj
        simp only [Option.some.injEq] at hj
        subst hj
        obtain ⟨a, b, e⟩ := h.conn i c hic
        refine ⟨by rw [readsOf_append]; simpa [readsOf] using a, b, ?_⟩
        simp only
        rw [ofConn_append, ofConn_one, if_pos rfl, ← e, hp]
        simp
      · rw [List.getElem?_set_ne hij] at hj
        obtain ⟨a, b, e⟩ := h.conn j c' hj
        refine ⟨by rw [readsOf_append]; simpa [readsOf] using a, b, ?_⟩
        simp only
        rw [ofConn_append, ofConn_one, if_neg hij, List.append_nil]; exact e
    · simp only [State.setConn, List.length_set] at hj ⊢
      obtain ⟨a, b, e⟩ := h.none j hj
      have : i ≠ j := by omega
      refine ⟨a, ?_, by rw [readsOf_append, e]; rfl⟩
      rw [ofConn_append, ofConn_one, if_neg this, b]; rfl
  | close i =>
    simp only at hs
    split at hs
    · simp at hs
    rename_i c hic
    split at hs
    rotate_left
    · simp at hs
    simp only [Option.some.injEq] at hs
    subst hs
    have hlt : i < s.conns.length := (List.getElem?_eq_some_iff.mp hic).1
    refine ⟨fun j c' hj => ?_, fun j hj => ?_⟩
    · simp only [State.setConn] at hj ⊢
      by_cases hij : i = j
      · subst hij
        rw [List.getElem?_set_self hlt] at hj
        simp only [Option.some.injEq] at hj
        subst hj
        obtain ⟨a, b, d⟩ := h.conn i c hic
        exact ⟨by rw [readsOf_append]; simpa [readsOf] using a, b, d⟩
      · rw [List.getElem?_set_ne hij] at hj
        obtain ⟨a, b, d⟩ := h.conn j c' hj
        exact ⟨by rw [readsOf_append]; simpa [readsOf] using a, b, d⟩
    · simp only [State.setConn, List.length_set] at hj ⊢
      obtain ⟨a, b, d⟩ := h.none j hj
      exact ⟨a, b, by rw [readsOf_append, d]; rfl⟩
  | recv =>
    simp only at hs
    split at hs
    · simp at hs
    rename_i x r hp
    simp only [Option.some.injEq] at hs
    subst hs
    refine ⟨fun j c' hj => ?_, fun j hj => ?_⟩
    · simp only at hj ⊢
      obtain ⟨a, b, e⟩ := h.conn j c' hj
      refine ⟨by rw [readsOf_append]; simpa [readsOf] using a, b, ?_⟩
      rw [← e, hp, ofConn_cons j x r]
      simp
    · simp only at hj ⊢
      obtain ⟨a, b, e⟩ := h.none j hj
      rw [hp, ofConn_cons j x r] at b
      simp only [List.append_eq_nil_iff] at b
      refine ⟨?_, b.2, by rw [readsOf_append, e]; rfl⟩
      rw [ofConn_append, a, b.1]; rfl
  | handoff i =>
    simp only at hs
    split at hs
    · simp at hs
    rename_i c hic
    split at hs
    · simp at hs
    rename_i d r hp
    split at hs
    · simp at hs
    rename_i hg
    simp only [not_or, Decidable.not_not] at hg
    simp only [Option.some.injEq] at hs
    subst hs
    have hlt : i < s.conns.length := (List.getElem?_eq_some_iff.mp hic).1
    have hq : s.pipeline = [] := List.eq_nil_of_length_eq_zero hg.2.2
    refine ⟨fun j c' hj => ?_, fun j hj => ?_⟩
    · simp only [State.setConn] at hj ⊢
      by_cases hij : i = j
      · subst hij
        rw [List.getElem?_set_self hlt] at hj
        simp only [Option.some.injEq] at hj
        subst hj
        obtain ⟨a, b, e⟩ := h.conn i c hic
        refine ⟨by rw [readsOf_append]; simpa [readsOf] using a, b, ?_⟩
        simp only
        rw [ofConn_append, ofConn_one, if_pos rfl, ← e, hp, hq]
        simp
      · rw [List.getElem?_set_ne hij] at hj
        obtain ⟨a, b, e⟩ := h.conn j c' hj
        refine ⟨by rw [readsOf_append]; simpa [readsOf] using a, b, ?_⟩
        simp only
        rw [ofConn_append, ofConn_one, if_neg hij, List.append_nil]; exact e
    · simp only [State.setConn, List.length_set] at hj ⊢
      obtain ⟨a, b, e⟩ := h.none j hj
      have : i ≠ j := by omega
      refine ⟨?_, b, by rw [readsOf_append, e]; rfl⟩
      rw [ofConn_append, ofConn_one, if_neg this, a]; rfl
  | recvClosed =>
    simp only at hs
    split at hs
    · simp only [Option.some.injEq] at hs; subst hs; exact inv_keep h rfl rfl rfl (fun _ => rfl)
    · simp at hs
  | endCall =>
    simp only at hs
    split at hs
    · simp only [Option.some.injEq] at hs; subst hs; simp at hc
    · simp only [Option.some.injEq] at hs; subst hs; exact inv_keep h rfl rfl rfl (fun _ => rfl)
  | recvErr =>
    simp only at hs
    split at hs
    · simp only [Option.some.injEq] at hs; subst hs; exact inv_keep h rfl rfl rfl (fun _ => rfl)
    · simp at hs

theorem step_not_crashed {t : Transport} {n : Nat} {e : Event} {s s' : State} (hs : step t n s e = some s') :
    s.crashed = false := by
  unfold step at hs
  split at hs
  · simp at hs
  · rename_i h; exact Bool.eq_false_iff.mpr h

theorem inv_run {t : Transport} {n : Nat} {es : List Event} {s : State} (h : run t n init es = some s) (hc : s.crashed = false) :
    Inv t es s := by
  refine run_induction (P := fun es s => s.crashed = false → Inv t es s) (fun _ => inv_init t) ?_ h hc
  intro es e s s' _ ih hs hc
  exact inv_step (ih (step_not_crashed hs)) hs hc

end Syslog5424.Recv
