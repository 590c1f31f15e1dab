import Verif.Lemmas.SimStep
/-! # Lemmas: histories of a receiver that decodes message by message -/
namespace Syslog5424.Recv
open Spec Tok

theorem srun_append (t : Transport) (n : Nat) (s : SState) (a b : List SEvent) :
    srun t n s (a ++ b) = (srun t n s a).bind fun s' => srun t n s' b := by
  induction a generalizing s with
  | nil => rfl
  | cons e r ih =>
    simp only [List.cons_append, srun]
    cases sstep t n s e with
    | none => rfl
    | some s' => exact ih s'

/-- Induction on the end of a history. -/
theorem srun_induction {t : Transport} {n : Nat} {s0 : SState} {P : List SEvent → SState → Prop} (h0 : P [] s0)
    (hs : ∀ es e s s', srun t n s0 es = some s → P es s → sstep t n s e = some s' → P (es ++ [e]) s')
    {es : List SEvent} {s : SState} (h : srun t n s0 es = some s) : P es s := by
  have gen : ∀ (es pre : List SEvent) (s1 s : SState), srun t n s0 pre = some s1 → P pre s1 → srun t n s1 es = some s → P (pre ++ es) s := by
    intro es
    induction es with
    | nil =>
      intro pre s1 s _ hp h
      simp only [srun, Option.some.injEq] at h
      rw [← h, List.append_nil]; exact hp
    | cons e r ih =>
      intro pre s1 s hpre hp h
      simp only [srun] at h
      cases hst : sstep t n s1 e with
      | none => rw [hst] at h; simp at h
      | some s2 =>
        rw [hst] at h
        have h1 : srun t n s0 (pre ++ [e]) = some s2 := by
          rw [srun_append, hpre]; simp [srun, hst]
        have := ih (pre ++ [e]) s2 s h1 (hs pre e s1 s2 hpre hp hst) (by simpa using h)
        simpa using this
  exact gen es [] s0 s rfl h0 h

theorem sstep_not_crashed {t : Transport} {n : Nat} {s s' : SState} {e : SEvent} (h : sstep t n s e = some s') : s.crashed = false := by
  cases hc : s.crashed with
  | false => rfl
  | true => unfold sstep at h; rw [hc] at h; simp at h

theorem sim_init (t : Transport) (n : Nat) : Sim t n [] sinit [] init [] [] where
  run := rfl
  alive := ⟨rfl, rfl⟩
  pc := rfl
  closed := rfl
  errs := rfl
  ended := rfl
  nils := rfl
  len := rfl
  conn := by intro i c k hc; simp [sinit] at hc
  pipe := ⟨rfl, rfl⟩
  got := ⟨rfl, rfl⟩
  marks := by intro x hx; simp at hx
  reads := fun _ _ => rfl
  doom := by intro i c k hc; simp [sinit] at hc

/-- Every history is simulated; if it crashed, all of it but the last event is. -/
theorem sim_run {t : Transport} {n : Nat} {es : List SEvent} {f : SState} (h : srun t n sinit es = some f) :
    (f.crashed = false ∧ ∃ es' s P G, Sim t n es f es' s P G) ∨
    (∃ es0 e f0 es' s P G, es = es0 ++ [e] ∧ Sim t n es0 f0 es' s P G ∧ f = { f0 with crashed := true } ∧
      (∀ j, sreadsOf j [e] = []) ∧
      ∃ e' s', step t n s e' = some s' ∧ s' = { s with crashed := true } ∧
        ∀ j : Nat, (∀ c, f0.conns[j]? = some c → ¬ Doomed t c) → readsOf j [e'] = []) := by
  refine srun_induction (P := fun es f => (f.crashed = false ∧ ∃ es' s P G, Sim t n es f es' s P G) ∨
    (∃ es0 e f0 es' s P G, es = es0 ++ [e] ∧ Sim t n es0 f0 es' s P G ∧ f = { f0 with crashed := true } ∧
      (∀ j, sreadsOf j [e] = []) ∧
      ∃ e' s', step t n s e' = some s' ∧ s' = { s with crashed := true } ∧
        ∀ j : Nat, (∀ c, f0.conns[j]? = some c → ¬ Doomed t c) → readsOf j [e'] = [])) (Or.inl ⟨rfl, _, _, _, _, sim_init t n⟩) ?_ h
  intro es e f f' _ ih hst
  have hnc := sstep_not_crashed hst
  rcases ih with ⟨_, es', s, P, G, hS⟩ | ⟨_, _, f0, _, _, _, _, _, _, rfl, _⟩
  · rcases sim_step hS hst with ⟨es2, s', P', G', hS'⟩ | ⟨h1, h9, e', s', h10, h11, h12⟩
    · exact Or.inl ⟨hS'.alive.1, _, _, _, _, hS'⟩
    · exact Or.inr ⟨es, e, f, es', s, P, G, rfl, hS, h1, h9, e', s', h10, h11, h12⟩
  · cases hnc

theorem ofConn_marks {i : Nat} {L : Marked} (h : ∀ x ∈ L, x.1 = false → x.2.1 ≠ i) :
    ofConn i ((L.filter (·.1)).map (·.2)) = ofConn i (L.map (·.2)) := by
  induction L with
  | nil => rfl
  | cons x L ih =>
    obtain ⟨b, j, d⟩ := x
    have ih := ih fun x hx => h x (List.mem_cons_of_mem _ hx)
    cases b with
    | true =>
      simp only [List.filter_cons, if_true, List.map_cons]
      rw [ofConn_cons, ofConn_cons (l := List.map _ L), ih]
    | false =>
      have hj : j ≠ i := h (false, j, d) (List.mem_cons_self ..) rfl
      simp only [List.filter_cons, List.map_cons, Bool.false_eq_true, if_false]
      rw [ofConn_cons (l := List.map _ L), ofConn_one, if_neg hj, ih]; rfl

/-- What was sent over a connection, with what is being sent, is what was decoded. -/
theorem souts_run {t : Transport} {n : Nat} {es : List SEvent} {f : SState} (h : srun t n sinit es = some f) :
    (∀ (i : Nat) (c : SConn), f.conns[i]? = some c →
      ofConn i f.got ++ ofConn i f.pipeline ++ (c.work.bind (·.sending)).toList = c.tok.out) ∧
    (∀ i, f.conns.length ≤ i → ofConn i f.got = [] ∧ ofConn i f.pipeline = []) := by
  refine srun_induction (P := fun _ f => (∀ (i : Nat) (c : SConn), f.conns[i]? = some c →
      ofConn i f.got ++ ofConn i f.pipeline ++ (c.work.bind (·.sending)).toList = c.tok.out) ∧
    (∀ i, f.conns.length ≤ i → ofConn i f.got = [] ∧ ofConn i f.pipeline = [])) ⟨by simp [sinit], by simp [sinit]⟩ ?_ h
  intro es e f f' _ ih hst
  have hnc := sstep_not_crashed hst
  obtain ⟨ih1, ih2⟩ := ih
  have keep : ∀ f2 : SState, f2.conns = f.conns → f2.got = f.got → f2.pipeline = f.pipeline →
      (∀ (i : Nat) (c : SConn), f2.conns[i]? = some c → ofConn i f2.got ++ ofConn i f2.pipeline ++ (c.work.bind (·.sending)).toList = c.tok.out) ∧
      (∀ i, f2.conns.length ≤ i → ofConn i f2.got = [] ∧ ofConn i f2.pipeline = []) := by
    intro f2 h1 h2 h3
    rw [h1, h2, h3]; exact ⟨ih1, ih2⟩
  -- one connection changes; `a` is what it gives
  have one : ∀ (f2 : SState) (i : Nat) (c c' : SConn) (a b : List (Nat × Tok.Delivered)), f.conns[i]? = some c → f2.conns = f.conns.set i c' →
      f2.got = f.got ++ a → f2.pipeline = f.pipeline ++ b → (a = [] ∨ f.pipeline = []) → (∀ x ∈ a ++ b, x.1 = i) →
      c'.tok.out = ofConn i f.got ++ ofConn i f.pipeline ++ ofConn i (a ++ b) ++ (c'.work.bind (·.sending)).toList →
      (∀ (i : Nat) (c : SConn), f2.conns[i]? = some c → ofConn i f2.got ++ ofConn i f2.pipeline ++ (c.work.bind (·.sending)).toList = c.tok.out) ∧
      (∀ i, f2.conns.length ≤ i → ofConn i f2.got = [] ∧ ofConn i f2.pipeline = []) := by
    intro f2 i c c' a b hc h1 h2 h3 h4 h5 h6
    have hil := (List.getElem?_eq_some_iff.1 hc).1
    have oth : ∀ (j : Nat), j ≠ i → ofConn j a = [] ∧ ofConn j b = [] := by
      intro j hj
      constructor
      · unfold ofConn
        rw [List.filterMap_eq_nil_iff]
        intro x hx
        rw [if_neg]
        rw [h5 x (by simp [hx])]
        exact fun hh => hj hh.symm
      · unfold ofConn
        rw [List.filterMap_eq_nil_iff]
        intro x hx
        rw [if_neg]
        rw [h5 x (by simp [hx])]
        exact fun hh => hj hh.symm
    constructor
    · intro j k hk
      rw [h1, List.getElem?_set] at hk
      rw [h2, h3, ofConn_append, ofConn_append]
      by_cases hj : i = j
      · subst hj
        rw [if_pos rfl, if_pos hil] at hk
        cases hk
        rw [h6, ofConn_append]
        rcases h4 with h4 | h4
        · subst h4; simp
        · rw [h4]; simp
      · rw [if_neg hj] at hk
        obtain ⟨o1, o2⟩ := oth j fun hh => hj hh.symm
        rw [o1, o2, List.append_nil, List.append_nil]
        exact ih1 j k hk
    · intro j hj
      rw [h1, List.length_set] at hj
      obtain ⟨o1, o2⟩ := oth j (by omega)
      rw [h2, h3, ofConn_append, ofConn_append, o1, o2, List.append_nil, List.append_nil]
      exact ih2 j hj
  have hsent : ∀ (c : SConn) (w : Work), (c.sent w).tok.out = c.tok.out ∧ ((c.sent w).work.bind (·.sending)) = none := by
    intro c w
    unfold SConn.sent
    split
    · exact ⟨advance_out_eq _ _ _ _, rfl⟩
    · exact ⟨rfl, rfl⟩
  unfold sstep at hst
  rw [if_neg (by rw [hnc]; simp)] at hst
  cases e with
  | decode i =>
    simp only at hst
    repeat' (split at hst)
    all_goals first | (cases hst; done) | skip
    · rename_i c hc _ w hw hg _ m pe hp
      simp only [Option.some.injEq] at hst
      subst hst
      have hse : w.sending = none := by cases hx : w.sending with
        | none => rfl
        | some d => exact absurd (Or.inr (by rw [hx]; rfl)) hg
      have := ih1 i c hc
      rw [hw] at this
      refine one _ i c (c.finish w) [] [] hc rfl (by simp [SState.setConn]) (by simp [SState.setConn]) (Or.inl rfl) (by simp) ?_
      rw [show (c.finish w).tok.out = c.tok.out from advance_out_eq _ _ _ _, ← this]
      simp [SConn.finish, hse]
    · rename_i c hc _ w hw hg _ m r pe hp
      simp only [Option.some.injEq] at hst
      subst hst
      have hse : w.sending = none := by cases hx : w.sending with
        | none => rfl
        | some d => exact absurd (Or.inr (by rw [hx]; rfl)) hg
      have := ih1 i c hc
      rw [hw] at this
      refine one _ i c _ [] [] hc rfl (by simp [SState.setConn]) (by simp [SState.setConn]) (Or.inl rfl) (by simp) ?_
      simp [← this, hse]
    · simp only [Option.some.injEq] at hst
      subst hst
      exact keep _ rfl rfl rfl
  | std e =>
    cases e with
    | tau =>
      simp only at hst
      repeat' (split at hst)
      all_goals first | (cases hst; done) | (simp only [Option.some.injEq] at hst; subst hst; exact keep _ rfl rfl rfl)
    | acceptOk =>
      simp only at hst
      split at hst
      · simp only [Option.some.injEq] at hst
        subst hst
        constructor
        · intro i c hc
          simp only at hc ⊢
          rcases Nat.lt_or_ge i f.conns.length with hl | hl
          · rw [List.getElem?_append_left hl] at hc; exact ih1 i c hc
          · rw [List.getElem?_append_right hl] at hc
            obtain ⟨a, b⟩ := ih2 i hl
            cases hx : i - f.conns.length with
            | zero => rw [hx] at hc; cases hc; rw [a, b]; rfl
            | succ m => rw [hx] at hc; simp at hc
        · intro i hi
          simp only [List.length_append, List.length_singleton] at hi
          exact ih2 i (by omega)
      · cases hst
    | acceptErr =>
      simp only at hst
      split at hst
      · simp only [Option.some.injEq] at hst; subst hst; exact keep _ rfl rfl rfl
      · cases hst
    | nilStart =>
      simp only at hst
      split at hst
      · simp only [Option.some.injEq] at hst; subst hst; exact keep _ rfl rfl rfl
      · cases hst
    | recvClosed =>
      simp only at hst
      split at hst
      · simp only [Option.some.injEq] at hst; subst hst; exact keep _ rfl rfl rfl
      · cases hst
    | recvErr =>
      simp only at hst
      split at hst
      · simp only [Option.some.injEq] at hst; subst hst; exact keep _ rfl rfl rfl
      · cases hst
    | endCall =>
      simp only at hst
      split at hst
      · simp only [Option.some.injEq] at hst; subst hst; exact keep _ rfl rfl rfl
      · simp only [Option.some.injEq] at hst; subst hst; exact keep _ rfl rfl rfl
    | read i r =>
      simp only at hst
      split at hst
      · cases hst
      rename_i c hc
      split at hst
      · rename_i hg
        have hw : c.work = none := by simpa using hg.2.1
        have := ih1 i c hc
        rw [hw] at this
        split at hst
        · rename_i c' hl
          simp only [Option.some.injEq] at hst
          subst hst
          refine one _ i c c' [] [] hc rfl (by simp [SState.setConn]) (by simp [SState.setConn]) (Or.inl rfl) (by simp) ?_
          have : c'.tok.out = c.tok.out ∧ (c'.work.bind (·.sending)) = none := by
            unfold SConn.load at hl
            simp only at hl
            split at hl
            · cases hl; exact ⟨rfl, by rw [hw]; rfl⟩
            · split at hl
              · cases hl; exact ⟨rfl, by rw [hw]; rfl⟩
              · cases hx : (Slice.exact (List.drop c.tok.off (overwrite c.tok.arr (c.tok.off + c.tok.done) (r.data ++ r.scratch)))).sub 0
                    ((r.data.length + c.tok.done : Nat) : Int) with
                | panic => rw [hx] at hl; cases hl
                | hang => rw [hx] at hl; cases hl
                | ret y => rw [hx] at hl; cases hl; exact ⟨rfl, rfl⟩
          rw [this.1, this.2, ← ih1 i c hc, hw]
          simp
        · simp only [Option.some.injEq] at hst; subst hst; exact keep _ rfl rfl rfl
        · cases hst
      · cases hst
    | sendErr i =>
      simp only at hst
      repeat' (split at hst)
      all_goals first | (cases hst; done) | skip
      rename_i c hc hg
      simp only [Option.some.injEq] at hst
      subst hst
      refine one _ i c _ [] [] hc rfl (by simp [SState.setConn]) (by simp [SState.setConn]) (Or.inl rfl) (by simp) ?_
      simp [← ih1 i c hc]
    | close i =>
      simp only at hst
      repeat' (split at hst)
      all_goals first | (cases hst; done) | skip
      rename_i c hc hg
      simp only [Option.some.injEq] at hst
      subst hst
      refine one _ i c _ [] [] hc rfl (by simp [SState.setConn]) (by simp [SState.setConn]) (Or.inl rfl) (by simp) ?_
      simp [← ih1 i c hc]
    | sendMsg i =>
      simp only at hst
      repeat' (split at hst)
      all_goals first | (cases hst; done) | skip
      · simp only [Option.some.injEq] at hst; subst hst; exact keep _ rfl rfl rfl
      · rename_i c hc x data eof lenRead d hw hg hcl hlen
        simp only [Option.some.injEq] at hst
        subst hst
        have := ih1 i c hc
        rw [hw] at this
        obtain ⟨s1, s2⟩ := hsent c ⟨data, eof, lenRead, some d⟩
        refine one _ i c _ [] [(i, d)] hc rfl (by simp [SState.setConn]) (by simp [SState.setConn]) (Or.inl rfl) (by simp) ?_
        rw [s1, s2, ← this]
        simp [ofConn_one]
    | handoff i =>
      simp only at hst
      repeat' (split at hst)
      all_goals first | (cases hst; done) | skip
      · rename_i c hc x data eof lenRead d hw hg
        simp only [Option.some.injEq] at hst
        subst hst
        have hpl : f.pipeline = [] := by
          by_cases hx : f.pipeline.length = 0
          · exact List.length_eq_zero_iff.1 hx
          · exact absurd (Or.inr (Or.inr hx)) hg
        have := ih1 i c hc
        rw [hw] at this
        obtain ⟨s1, s2⟩ := hsent c ⟨data, eof, lenRead, some d⟩
        refine one _ i c _ [(i, d)] [] hc rfl (by simp [SState.setConn]) (by simp [SState.setConn]) (Or.inr hpl) (by simp) ?_
        rw [s1, s2, ← this]
        simp [ofConn_one]
    | recv =>
      simp only at hst
      split at hst
      · cases hst
      · rename_i x r hp
        simp only [Option.some.injEq] at hst
        subst hst
        have e1 : ∀ j, ofConn j (f.got ++ [x]) ++ ofConn j r = ofConn j f.got ++ ofConn j f.pipeline := by
          intro j; rw [hp, ofConn_cons (l := r), ofConn_append, List.append_assoc]
        constructor
        · intro i c hc
          have := ih1 i c hc
          simp only
          rw [e1]; exact this
        · intro i hi
          obtain ⟨a, b⟩ := ih2 i hi
          have := e1 i
          rw [a, b] at this
          simpa [and_assoc] using this

end Syslog5424.Recv
