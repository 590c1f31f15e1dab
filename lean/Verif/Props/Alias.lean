import Verif.Lemmas.Alias
/-! # Property C28: messages are values -/
namespace Syslog5424
open Spec Alias

/-- The header of a message fits its array, and its length is the one of its list. -/
theorem shape (spare : Nat → Nat → Nat) (ops : List Op) :
    (run spare ops).msgs.length = (values ops).length ∧
    ∀ (k : Nat) (h : Hdr) (v : List SD), (run spare ops).msgs[k]? = some h → (values ops)[k]? = some v →
      h.arr < (run spare ops).heap.length ∧ h.len = v.length ∧ h.len ≤ ((run spare ops).heap.getD h.arr []).length := by
  have gen : ∀ (n : Nat) (ops : List Op), ops.length = n → (run spare ops).msgs.length = (values ops).length ∧
      ∀ (k : Nat) (h : Hdr) (v : List SD), (run spare ops).msgs[k]? = some h → (values ops)[k]? = some v →
        h.arr < (run spare ops).heap.length ∧ h.len = v.length ∧ h.len ≤ ((run spare ops).heap.getD h.arr []).length := by
    intro n
    induction n with
    | zero =>
      intro ops hn
      rw [List.length_eq_zero_iff.mp hn]
      refine ⟨rfl, fun k h v h1 h2 => ?_⟩
      match k with
      | 0 =>
        simp only [run, List.foldl_nil, Alias.init, values, List.getElem?_cons_zero, Option.some.injEq] at h1 h2
        subst h1; subst h2; simp [run, Alias.init]
      | k + 1 => simp [run, Alias.init] at h1
    | succ n ih =>
      intro ops hn
      obtain ⟨l, o, rfl⟩ : ∃ l o, ops = l ++ [o] := by
        refine ⟨ops.dropLast, ops.getLast (by intro h0; simp [h0] at hn), ?_⟩
        rw [List.dropLast_concat_getLast]
      obtain ⟨i1, i2⟩ := ih l (by simpa using hn)
      rw [run_snoc, values_snoc]
      generalize hs : run spare l = s at i1 i2
      cases hsrc : s.msgs[o.src]? with
      | none =>
        have hv : (values l)[o.src]? = none := by rw [List.getElem?_eq_none_iff] at hsrc ⊢; rw [← i1]; exact hsrc
        have e1 : step spare s o = s := by simp [step, hsrc]
        rw [e1, hv]; exact ⟨i1, i2⟩
      | some h =>
        obtain ⟨v, hv⟩ : ∃ v, (values l)[o.src]? = some v := ⟨_, List.getElem?_eq_getElem (by rw [← i1]; exact getElem?_lt hsrc)⟩
        obtain ⟨a1, a2, a3⟩ := i2 _ _ _ hsrc hv
        rw [hv]
        have htl : ((s.heap.getD h.arr []).take h.len).length = h.len := by rw [List.length_take]; omega
        have hheap : s.heap.length ≤ (goAppend spare s.heap h o.data).1.length ∧
            (∀ j, j < s.heap.length → (s.heap.getD j []).length ≤ ((goAppend spare s.heap h o.data).1.getD j []).length) ∧
            (goAppend spare s.heap h o.data).2.arr < (goAppend spare s.heap h o.data).1.length ∧
            (goAppend spare s.heap h o.data).2.len = h.len + o.data.length ∧
            (goAppend spare s.heap h o.data).2.len ≤ ((goAppend spare s.heap h o.data).1.getD (goAppend spare s.heap h o.data).2.arr []).length := by
          simp only [goAppend]
          split
          · rename_i hfit
            refine ⟨by simp, fun j hj => ?_, by simpa using a1, rfl, ?_⟩
            · simp only [List.getD_eq_getElem?_getD]
              by_cases hji : h.arr = j
              · subst hji
                rw [List.getElem?_set_self a1, Option.getD_some]
                simp only [List.getD_eq_getElem?_getD] at htl hfit
                simp only [List.length_append, htl, List.length_map, List.length_drop]; omega
              · rw [List.getElem?_set_ne hji]; exact Nat.le_refl _
            · simp only [List.getD_eq_getElem?_getD] at htl hfit ⊢
              rw [List.getElem?_set_self a1, Option.getD_some]
              simp only [List.length_append, htl, List.length_map, List.length_drop]; omega
          · refine ⟨by simp, fun j hj => ?_, by simp, rfl, ?_⟩
            · simp only [List.getD_eq_getElem?_getD]
              rw [List.getElem?_append_left hj]; exact Nat.le_refl _
            · simp only [List.getD_eq_getElem?_getD] at htl ⊢
              rw [List.getElem?_concat_length, Option.getD_some]
              simp only [List.length_append, htl, List.length_map]; omega
        obtain ⟨b1, b2, b3, b4, b5⟩ := hheap
        have e1 : step spare s o = ⟨(goAppend spare s.heap h o.data).1, s.msgs ++ [(goAppend spare s.heap h o.data).2]⟩ := by
          simp [step, hsrc]
        rw [e1]
        refine ⟨by simp [i1], fun k h' v' h1 h2 => ?_⟩
        rcases getElem?_snoc h1 with h1 | ⟨h1, h1'⟩
        · rcases getElem?_snoc h2 with h2 | ⟨h2, h2'⟩
          · obtain ⟨c1, c2, c3⟩ := i2 k h' v' h1 h2
            exact ⟨Nat.lt_of_lt_of_le c1 b1, c2, Nat.le_trans c3 (b2 _ c1)⟩
          · have := getElem?_lt h1; omega
        · rcases getElem?_snoc h2 with h2 | ⟨h2, h2'⟩
          · have := getElem?_lt h2; omega
          · subst h1'; subst h2'
            exact ⟨b3, by rw [b4, a2, List.length_append], b5⟩
  exact gen _ ops rfl

/-- C28 (partial): deriving a message changes neither the message it is derived from nor any message whose list is not
longer (in particular none of those it descends from), and gives the list of that message followed by the data. Missing:
the messages with longer lists, see `C28_sibling_violated`. -/
theorem C28_original_partial (spare : Nat → Nat → Nat) (ops : List Op) (o : Op) (v : List SD) (hv : (values ops)[o.src]? = some v) :
    (∀ (k : Nat) (w : List SD), (values ops)[k]? = some w → w.length ≤ v.length →
      (run spare (ops ++ [o])).content k = (run spare ops).content k) ∧
    (run spare (ops ++ [o])).content (values ops).length = ((run spare ops).content o.src).map (· ++ o.data.map some) := by
  obtain ⟨i1, i2⟩ := shape spare ops
  rw [run_snoc]
  generalize run spare ops = s at i1 i2
  obtain ⟨h, hsrc⟩ : ∃ h, s.msgs[o.src]? = some h := ⟨_, List.getElem?_eq_getElem (by rw [i1]; exact getElem?_lt hv)⟩
  obtain ⟨a1, a2, a3⟩ := i2 _ _ _ hsrc hv
  have htl : ((s.heap.getD h.arr []).take h.len).length = h.len := by rw [List.length_take]; omega
  have e1 : step spare s o = ⟨(goAppend spare s.heap h o.data).1, s.msgs ++ [(goAppend spare s.heap h o.data).2]⟩ := by
    simp [step, hsrc]
  rw [e1]
  constructor
  · intro k w hw hlen
    obtain ⟨h', hk⟩ : ∃ h', s.msgs[k]? = some h' := ⟨_, List.getElem?_eq_getElem (by rw [i1]; exact getElem?_lt hw)⟩
    obtain ⟨b1, b2, b3⟩ := i2 _ _ _ hk hw
    simp only [State.content]
    rw [List.getElem?_append_left (getElem?_lt hk), hk]
    simp only [Option.map_some, Option.some.injEq, goAppend]
    split
    · simp only [List.getD_eq_getElem?_getD]
      by_cases hji : h.arr = h'.arr
      · rw [← hji, List.getElem?_set_self a1, Option.getD_some]
        simp only [List.getD_eq_getElem?_getD] at htl
        rw [List.append_assoc, List.take_append_of_le_length (by rw [htl]; omega), List.take_take, Nat.min_eq_left (by omega)]
      · rw [List.getElem?_set_ne hji]
    · simp only [List.getD_eq_getElem?_getD]
      rw [List.getElem?_append_left b1]
  · simp only [State.content, hsrc, Option.map_some, ← i1]
    rw [List.getElem?_concat_length]
    simp only [Option.map_some, Option.some.injEq, goAppend]
    split
    · rename_i hfit
      simp only [List.getD_eq_getElem?_getD] at htl hfit ⊢
      rw [List.getElem?_set_self a1, Option.getD_some]
      rw [List.take_append_of_le_length (by simp only [List.length_append, htl, List.length_map]; omega)]
      rw [List.take_of_length_le (by simp only [List.length_append, htl, List.length_map]; omega)]
    · simp only [List.getD_eq_getElem?_getD] at htl ⊢
      rw [List.getElem?_concat_length, Option.getD_some]
      rw [List.take_append_of_le_length (by simp only [List.length_append, htl, List.length_map]; omega)]
      rw [List.take_of_length_le (by simp only [List.length_append, htl, List.length_map]; omega)]

/-- C28 (partial): whatever the growth policy, when no (non empty) list is extended twice, every message has, at any
time, the structured data it was given. -/
theorem C28_extended_once_partial (spare : Nat → Nat → Nat) (ops : List Op) (h : ExtendedOnce ops) (k : Nat) :
    (run spare ops).content k = ((values ops)[k]?).map (·.map some) := by
  have I := inv_run spare ops h
  simp only [State.content]
  cases hk : (run spare ops).msgs[k]? with
  | none =>
    have : (values ops)[k]? = none := by rw [List.getElem?_eq_none_iff] at hk ⊢; rw [← I.lenv]; exact hk
    rw [this]; rfl
  | some hd =>
    obtain ⟨v, hv⟩ : ∃ v, (values ops)[k]? = some v := ⟨_, List.getElem?_eq_getElem (by rw [← I.lenv]; exact getElem?_lt hk)⟩
    rw [hv]
    simp only [Option.map_some, Option.some.injEq]
    exact (I.val k hd v hk hv).2.2

/-- Three additions in a row, a copy, and a second message from scratch. -/
def Spec.sampleOps (a b : SD) : List Op := [⟨0, [a]⟩, ⟨1, [b]⟩, ⟨2, [a, b]⟩, ⟨2, []⟩, ⟨0, [b]⟩]

example (a b : SD) : ExtendedOnce (sampleOps a b) ∧
    values (sampleOps a b) = [[], [a], [a, b], [a, b, a, b], [a, b], [b]] := by
  refine ⟨?_, rfl⟩
  intro i j oi oj hi hj hij h1 h2 g h3 h4
  have ho : origins (sampleOps a b) = [0, 1, 2, 3, 2, 5] := rfl
  rw [ho] at h3 h4
  have hj5 := getElem?_lt hj
  have hl : (sampleOps a b).length = 5 := rfl
  rw [hl] at hj5
  match i, j, hij, hj5 with
  | 0, 1, _, _ => simp [sampleOps] at hi hj; subst hi; subst hj; simp at h3 h4; omega
  | 0, 2, _, _ => simp [sampleOps] at hi hj; subst hi; subst hj; simp at h3 h4; omega
  | 0, 3, _, _ => simp [sampleOps] at hi hj; subst hi; subst hj; simp at h2
  | 0, 4, _, _ => simp [sampleOps] at hi hj; subst hi; subst hj; simp at h3 h4; omega
  | 1, 2, _, _ => simp [sampleOps] at hi hj; subst hi; subst hj; simp at h3 h4; omega
  | 1, 3, _, _ => simp [sampleOps] at hi hj; subst hi; subst hj; simp at h2
  | 1, 4, _, _ => simp [sampleOps] at hi hj; subst hi; subst hj; simp at h3 h4; omega
  | 2, 3, _, _ => simp [sampleOps] at hi hj; subst hi; subst hj; simp at h2
  | 2, 4, _, _ => simp [sampleOps] at hi hj; subst hi; subst hj; simp at h3 h4; omega
  | 3, 4, _, _ => simp [sampleOps] at hi hj; subst hi; subst hj; simp at h1
  | i + 4, j, _, _ => omega

/-- C28 (partial): if `append` never left room, messages would be values. -/
theorem C28_no_room_partial (ops : List Op) (k : Nat) :
    (run (fun _ _ => 0) ops).content k = ((values ops)[k]?).map (·.map some) := by
  have gen : ∀ (n : Nat) (ops : List Op), ops.length = n →
      (∀ a ∈ (run (fun _ _ => 0) ops).msgs, a.len = ((run (fun _ _ => 0) ops).heap.getD a.arr []).length) ∧
      ∀ k, (run (fun _ _ => 0) ops).content k = ((values ops)[k]?).map (·.map some) := by
    intro n
    induction n with
    | zero =>
      intro ops hn
      rw [List.length_eq_zero_iff.mp hn]
      refine ⟨by simp [run, Alias.init], fun k => ?_⟩
      match k with
      | 0 => rfl
      | k + 1 => simp [run, Alias.init, State.content, values]
    | succ n ih =>
      intro ops hn
      obtain ⟨l, o, rfl⟩ : ∃ l o, ops = l ++ [o] := by
        refine ⟨ops.dropLast, ops.getLast (by intro h0; simp [h0] at hn), ?_⟩
        rw [List.dropLast_concat_getLast]
      obtain ⟨i1, i2⟩ := ih l (by simpa using hn)
      obtain ⟨s1, s2⟩ := shape (fun _ _ => 0) l
      cases hv : (values l)[o.src]? with
      | none =>
        have hsrc : (run (fun _ _ => 0) l).msgs[o.src]? = none := by
          rw [List.getElem?_eq_none_iff] at hv ⊢; rw [s1]; exact hv
        have e1 : run (fun _ _ => 0) (l ++ [o]) = run (fun _ _ => 0) l := by rw [run_snoc]; simp [step, hsrc]
        have e2 : values (l ++ [o]) = values l := by rw [values_snoc, hv]
        rw [e1, e2]; exact ⟨i1, i2⟩
      | some v =>
        have horig := C28_original_partial (fun _ _ => 0) l o v hv
        have e2 : values (l ++ [o]) = values l ++ [v ++ o.data] := by rw [values_snoc, hv]
        obtain ⟨h, hsrc⟩ : ∃ h, (run (fun _ _ => 0) l).msgs[o.src]? = some h :=
          ⟨_, List.getElem?_eq_getElem (by rw [s1]; exact getElem?_lt hv)⟩
        obtain ⟨a1, a2, a3⟩ := s2 _ _ _ hsrc hv
        have hfull := i1 h (List.mem_of_getElem? hsrc)
        have e1 : run (fun _ _ => 0) (l ++ [o]) = ⟨(goAppend (fun _ _ => 0) (run (fun _ _ => 0) l).heap h o.data).1,
            (run (fun _ _ => 0) l).msgs ++ [(goAppend (fun _ _ => 0) (run (fun _ _ => 0) l).heap h o.data).2]⟩ := by
          rw [run_snoc]; simp [step, hsrc]
        generalize hs : run (fun _ _ => 0) l = s at *
        have hlast : (run (fun _ _ => 0) (l ++ [o])).content (values l).length = some ((v ++ o.data).map some) := by
          rw [horig.2, i2, hv]; simp
        by_cases hd : o.data = []
        · have hset : s.heap.set h.arr (s.heap.getD h.arr []) = s.heap := by
            rw [List.getD_eq_getElem?_getD, List.getElem?_eq_getElem a1, Option.getD_some, List.set_getElem_self]
          have e3 : goAppend (fun _ _ => 0) s.heap h o.data = (s.heap, h) := by
            simp only [goAppend, hd, List.length_nil, Nat.add_zero, List.map_nil, List.append_nil]
            rw [if_pos a3, List.take_append_drop, hset]
          rw [e3] at e1
          refine ⟨?_, fun k => ?_⟩
          · rw [e1]
            intro x hx
            simp only [List.mem_append, List.mem_singleton] at hx
            rcases hx with hx | hx
            · exact i1 x hx
            · rw [hx]; exact hfull
          · rw [e2]
            rcases Nat.lt_trichotomy k (values l).length with hk | hk | hk
            · rw [List.getElem?_append_left hk, ← i2 k, e1]
              simp only [State.content]
              rw [List.getElem?_append_left (by rw [s1]; exact hk)]
            · subst hk; rw [hlast]; simp
            · rw [e1]
              simp only [State.content]
              rw [List.getElem?_eq_none (by simp; omega), List.getElem?_eq_none (by simp; omega)]; rfl
        · have hdl : 0 < o.data.length := by cases hx : o.data <;> simp_all
          have hnofit : ¬ h.len + o.data.length ≤ (s.heap.getD h.arr []).length := by omega
          have e3 : goAppend (fun _ _ => 0) s.heap h o.data =
              (s.heap ++ [(s.heap.getD h.arr []).take h.len ++ o.data.map some], ⟨s.heap.length, h.len + o.data.length⟩) := by
            simp only [goAppend]; rw [if_neg hnofit]; simp
          rw [e3] at e1
          refine ⟨?_, fun k => ?_⟩
          · rw [e1]
            intro x hx
            simp only [List.mem_append, List.mem_singleton] at hx
            rcases hx with hx | hx
            · obtain ⟨j, hj⟩ := List.mem_iff_getElem?.mp hx
              obtain ⟨w, hw⟩ : ∃ w, (values l)[j]? = some w := ⟨_, List.getElem?_eq_getElem (by rw [← s1]; exact getElem?_lt hj)⟩
              have hlt := (s2 j x w hj hw).1
              simp only [List.getD_eq_getElem?_getD]
              rw [List.getElem?_append_left hlt]
              have := i1 x hx
              simpa only [List.getD_eq_getElem?_getD] using this
            · rw [hx]
              simp only [List.getD_eq_getElem?_getD]
              rw [List.getElem?_concat_length, Option.getD_some]
              simp only [List.length_append, List.length_take, List.length_map]
              simp only [List.getD_eq_getElem?_getD] at hfull
              omega
          · rw [e2]
            rcases Nat.lt_trichotomy k (values l).length with hk | hk | hk
            · rw [List.getElem?_append_left hk, ← i2 k, e1]
              simp only [State.content]
              rw [List.getElem?_append_left (by rw [s1]; exact hk)]
              cases hm : s.msgs[k]? with
              | none => rfl
              | some x =>
                obtain ⟨w, hw⟩ : ∃ w, (values l)[k]? = some w := ⟨_, List.getElem?_eq_getElem hk⟩
                have hlt := (s2 k x w hm hw).1
                simp only [Option.map_some, Option.some.injEq, List.getD_eq_getElem?_getD]
                rw [List.getElem?_append_left hlt]
            · subst hk; rw [hlast]; simp
            · rw [e1]
              simp only [State.content]
              rw [List.getElem?_eq_none (by simp; omega), List.getElem?_eq_none (by simp; omega)]; rfl
  exact (gen _ ops rfl).2 k

/-- C28 is violated: build a message by adding three elements one by one, then derive two messages from it: the second
derivation replaces the last element of the first derived message. `spare` is any growth policy that, like the one of Go
(which doubles the capacity of small slices), goes from 0 to 1, from 1 to 2, and from 2 to more than 3. -/
theorem C28_sibling_violated (spare : Nat → Nat → Nat) (h1 : spare 0 1 = 0) (h2 : spare 1 2 = 0) (h3 : 0 < spare 2 3) (a b c d e : SD) :
    (run spare [⟨0, [a]⟩, ⟨1, [b]⟩, ⟨2, [c]⟩, ⟨3, [d]⟩]).content 4 = some [some a, some b, some c, some d] ∧
    (run spare [⟨0, [a]⟩, ⟨1, [b]⟩, ⟨2, [c]⟩, ⟨3, [d]⟩, ⟨3, [e]⟩]).content 4 = some [some a, some b, some c, some e] := by
  obtain ⟨n, hn⟩ : ∃ n, spare 2 3 = n + 1 := ⟨spare 2 3 - 1, by omega⟩
  constructor <;>
    simp [run, step, Alias.init, goAppend, h1, h2, hn, State.content, List.replicate_succ]

/-- Doubling is such a policy. -/
example : let spare := fun old need => max (2 * old) need - need
    spare 0 1 = 0 ∧ spare 1 2 = 0 ∧ 0 < spare 2 3 := by decide
end Syslog5424
