import Verif.Spec.Alias
/-! # Lemmas about the memory of structured data lists -/
namespace Syslog5424.Alias
open Spec

theorem run_snoc (spare : Nat → Nat → Nat) (ops : List Op) (o : Op) : run spare (ops ++ [o]) = step spare (run spare ops) o := by
  simp [run]

theorem values_snoc (ops : List Op) (o : Op) :
    values (ops ++ [o]) = match (values ops)[o.src]? with | none => values ops | some v => values ops ++ [v ++ o.data] := by
  simp only [values, List.foldl_append, List.foldl_cons, List.foldl_nil]
  rfl

theorem origins_snoc (ops : List Op) (o : Op) :
    origins (ops ++ [o]) = match (origins ops)[o.src]? with
      | none => origins ops
      | some g => origins ops ++ [if o.data.isEmpty then g else (origins ops).length] := by
  simp only [origins, List.foldl_append, List.foldl_cons, List.foldl_nil]
  rfl

/-- Something was added to a list of origin `g`. -/
def Used (ops : List Op) (g : Nat) : Prop := ∃ o ∈ ops, o.data ≠ [] ∧ (origins ops)[o.src]? = some g

/-- What holds as long as no list is extended twice. -/
structure Inv (ops : List Op) (s : State) : Prop where
  lenv : s.msgs.length = (values ops).length
  leng : s.msgs.length = (origins ops).length
  zero : s.heap.getD 0 [] = []
  pos : 0 < s.heap.length
  val : ∀ (k : Nat) (h : Hdr) (v : List SD), s.msgs[k]? = some h → (values ops)[k]? = some v →
    h.arr < s.heap.length ∧ h.len = v.length ∧ (s.heap.getD h.arr []).take h.len = v.map some
  same : ∀ (k k' : Nat) (h h' : Hdr) (g : Nat), s.msgs[k]? = some h → s.msgs[k']? = some h' →
    (origins ops)[k]? = some g → (origins ops)[k']? = some g → h = h'
  empty : ∀ (k : Nat) (h : Hdr) (g : Nat), s.msgs[k]? = some h → (origins ops)[k]? = some g → (g = 0 ↔ h.arr = 0)
  bound : ∀ (k g : Nat), (origins ops)[k]? = some g → g ≤ k
  top : ∀ (k k' : Nat) (h h' : Hdr) (g g' : Nat), s.msgs[k]? = some h → s.msgs[k']? = some h' →
    (origins ops)[k]? = some g → (origins ops)[k']? = some g' → g ≠ 0 → ¬ Used ops g → h'.arr = h.arr →
    h'.len ≤ h.len ∧ (¬ Used ops g' → g' = g)

theorem getElem?_snoc {α : Type} {l : List α} {x y : α} {k : Nat} (h : (l ++ [x])[k]? = some y) :
    l[k]? = some y ∨ (k = l.length ∧ x = y) := by
  rcases Nat.lt_trichotomy k l.length with h1 | h1 | h1
  · rw [List.getElem?_append_left h1] at h; exact Or.inl h
  · subst h1; simp at h; exact Or.inr ⟨rfl, h⟩
  · rw [List.getElem?_eq_none (by simp; omega)] at h; simp at h

theorem getElem?_lt {α : Type} {l : List α} {y : α} {k : Nat} (h : l[k]? = some y) : k < l.length :=
  (List.getElem?_eq_some_iff.mp h).1

theorem origins_mono (ops : List Op) (o : Op) {k g : Nat} (h : (origins ops)[k]? = some g) : (origins (ops ++ [o]))[k]? = some g := by
  rw [origins_snoc]
  split
  · exact h
  · rw [List.getElem?_append_left (getElem?_lt h)]; exact h

theorem used_mono {ops : List Op} {o : Op} {g : Nat} (h : Used ops g) : Used (ops ++ [o]) g := by
  obtain ⟨o', h1, h2, h3⟩ := h
  exact ⟨o', by simp [h1], h2, origins_mono ops o h3⟩

theorem once_prefix {ops : List Op} {o : Op} (h : ExtendedOnce (ops ++ [o])) : ExtendedOnce ops := by
  intro i j oi oj hi hj hij h1 h2 g h3 h4
  refine h i j oi oj ?_ ?_ hij h1 h2 g (origins_mono _ _ h3) (origins_mono _ _ h4)
  · rw [List.getElem?_append_left (getElem?_lt hi)]; exact hi
  · rw [List.getElem?_append_left (getElem?_lt hj)]; exact hj

theorem once_last {ops : List Op} {o : Op} (h : ExtendedOnce (ops ++ [o])) (hd : o.data ≠ []) {g : Nat}
    (hg : (origins ops)[o.src]? = some g) (hg0 : g ≠ 0) : ¬ Used ops g := by
  rintro ⟨o', h1, h2, h3⟩
  obtain ⟨i, hi⟩ := List.mem_iff_getElem?.mp h1
  refine hg0 (h i ops.length o' o ?_ (by simp) (getElem?_lt hi) h2 hd g (origins_mono _ _ h3) (origins_mono _ _ hg))
  rw [List.getElem?_append_left (getElem?_lt hi)]; exact hi

theorem inv_init : Inv [] Alias.init := by
  refine ⟨rfl, rfl, rfl, by simp [init], ?_, ?_, ?_, ?_, ?_⟩ <;> simp only [init, values, origins, List.foldl_nil]
  · intro k h v h1 h2
    match k with
    | 0 => simp at h1 h2; subst h1; subst h2; simp
    | k + 1 => simp at h1
  · intro k k' h h' g h1 h2 _ _
    match k, k' with
    | 0, 0 => simp at h1 h2; rw [← h1, ← h2]
    | k + 1, _ => simp at h1
    | 0, k' + 1 => simp at h2
  · intro k h g h1 h2
    match k with
    | 0 => simp at h1 h2; subst h1; subst h2; simp
    | k + 1 => simp at h1
  · intro k g h1
    match k with
    | 0 => simp at h1; omega
    | k + 1 => simp at h1
  · intro k k' h h' g g' h1 h2 h3 h4 h5
    match k with
    | 0 => simp at h3; omega
    | k + 1 => simp at h1

theorem inv_step (spare : Nat → Nat → Nat) {ops : List Op} {o : Op} {s : State} (I : Inv ops s)
    (hon : ExtendedOnce (ops ++ [o])) : Inv (ops ++ [o]) (step spare s o) := by
  cases hsrc : s.msgs[o.src]? with
  | none =>
    have hv : (values ops)[o.src]? = none := by
      rw [List.getElem?_eq_none_iff] at hsrc ⊢; rw [← I.lenv]; exact hsrc
    have hg : (origins ops)[o.src]? = none := by
      rw [List.getElem?_eq_none_iff] at hsrc ⊢; rw [← I.leng]; exact hsrc
    have e1 : step spare s o = s := by simp [step, hsrc]
    have e2 : values (ops ++ [o]) = values ops := by rw [values_snoc, hv]
    have e3 : origins (ops ++ [o]) = origins ops := by rw [origins_snoc, hg]
    rw [e1]
    obtain ⟨a1, a2, a3, a4, a5, a6, a7, a8, a9⟩ := I
    refine ⟨by rw [e2]; exact a1, by rw [e3]; exact a2, a3, a4, by rw [e2]; exact a5, by rw [e3]; exact a6, by rw [e3]; exact a7,
      by rw [e3]; exact a8, ?_⟩
    rw [e3]
    intro k k' h h' g g' h1 h2 h3 h4 h5 h6 h7
    obtain ⟨b1, b2⟩ := a9 k k' h h' g g' h1 h2 h3 h4 h5 (fun hu => h6 (used_mono hu)) h7
    exact ⟨b1, fun hu => b2 fun hu' => hu (used_mono hu')⟩
  | some h =>
    obtain ⟨v, hv⟩ : ∃ v, (values ops)[o.src]? = some v := ⟨_, List.getElem?_eq_getElem (by rw [← I.lenv]; exact getElem?_lt hsrc)⟩
    obtain ⟨g, hg⟩ : ∃ g, (origins ops)[o.src]? = some g := ⟨_, List.getElem?_eq_getElem (by rw [← I.leng]; exact getElem?_lt hsrc)⟩
    obtain ⟨v1, v2, v3⟩ := I.val _ _ _ hsrc hv
    have hlen : h.len ≤ (s.heap.getD h.arr []).length := by
      have := congrArg List.length v3
      simp only [List.length_take, List.length_map] at this; omega
    have e2 : values (ops ++ [o]) = values ops ++ [v ++ o.data] := by rw [values_snoc, hv]
    have e3 : origins (ops ++ [o]) = origins ops ++ [if o.data.isEmpty then g else (origins ops).length] := by rw [origins_snoc, hg]
    by_cases hd : o.data = []
    · -- a copy
      have e3' : origins (ops ++ [o]) = origins ops ++ [g] := by rw [e3, hd]; rfl
      have hset : ∀ l : Heap, h.arr < l.length → l.set h.arr (l.getD h.arr []) = l := by
        intro l hl
        rw [List.getD_eq_getElem?_getD, List.getElem?_eq_getElem hl, Option.getD_some, List.set_getElem_self]
      have e1 : step spare s o = ⟨s.heap, s.msgs ++ [h]⟩ := by
        simp only [step, hsrc, goAppend, hd, List.length_nil, Nat.add_zero, List.map_nil, List.append_nil]
        rw [if_pos hlen, List.take_append_drop, hset _ v1]
      rw [e1]
      have idx : ∀ (k : Nat) (h' : Hdr) (g' : Nat), (s.msgs ++ [h])[k]? = some h' → (origins ops ++ [g])[k]? = some g' →
          ∃ k0, k0 ≤ k ∧ s.msgs[k0]? = some h' ∧ (origins ops)[k0]? = some g' := by
        intro k h' g' h1 h2
        rcases getElem?_snoc h1 with h1 | ⟨h1, h1'⟩
        · rcases getElem?_snoc h2 with h2 | ⟨h2, h2'⟩
          · exact ⟨k, Nat.le_refl _, h1, h2⟩
          · have := getElem?_lt h1; have := I.leng; omega
        · rcases getElem?_snoc h2 with h2 | ⟨h2, h2'⟩
          · have := getElem?_lt h2; have := I.leng; omega
          · subst h1'; subst h2'
            refine ⟨o.src, ?_, hsrc, hg⟩
            have := getElem?_lt hsrc; omega
      refine ⟨by rw [e2]; simp [I.lenv], by rw [e3']; simp [I.leng], I.zero, I.pos, ?_, ?_, ?_, ?_, ?_⟩
      · rw [e2]
        intro k h' v' h1 h2
        rcases getElem?_snoc h1 with h1 | ⟨h1, h1'⟩
        · rcases getElem?_snoc h2 with h2 | ⟨h2, h2'⟩
          · exact I.val k h' v' h1 h2
          · have := getElem?_lt h1; have := I.lenv; omega
        · rcases getElem?_snoc h2 with h2 | ⟨h2, h2'⟩
          · have := getElem?_lt h2; have := I.lenv; omega
          · subst h1'; subst h2'
            rw [hd, List.append_nil]; exact I.val _ _ _ hsrc hv
      · rw [e3']
        intro k k' h1 h2 g' a1 a2 a3 a4
        obtain ⟨k1, _, b1, b2⟩ := idx k h1 g' a1 a3
        obtain ⟨k2, _, c1, c2⟩ := idx k' h2 g' a2 a4
        exact I.same k1 k2 h1 h2 g' b1 c1 b2 c2
      · rw [e3']
        intro k h1 g' a1 a2
        obtain ⟨k1, _, b1, b2⟩ := idx k h1 g' a1 a2
        exact I.empty k1 h1 g' b1 b2
      · rw [e3']
        intro k g' a1
        have hk : k < (s.msgs ++ [h]).length := by have := getElem?_lt a1; simp [I.leng] at this ⊢; exact this
        obtain ⟨k1, hle, _, b2⟩ := idx k _ g' (List.getElem?_eq_getElem hk) a1
        exact Nat.le_trans (I.bound k1 g' b2) hle
      · intro k k' h1 h2 g1 g2 a1 a2 a3 a4 hg0 hu harr
        rw [e3'] at a3 a4
        obtain ⟨k1, _, b1, b2⟩ := idx k h1 g1 a1 a3
        obtain ⟨k2, _, c1, c2⟩ := idx k' h2 g2 a2 a4
        obtain ⟨d1, d2⟩ := I.top k1 k2 h1 h2 g1 g2 b1 c1 b2 c2 hg0 (fun x => hu (used_mono x)) harr
        exact ⟨d1, fun hu' => d2 fun x => hu' (used_mono x)⟩
    · have he : o.data.isEmpty = false := by cases hx : o.data <;> simp_all
      have hdl : 0 < o.data.length := by cases hx : o.data <;> simp_all
      rw [he] at e3
      simp only [Bool.false_eq_true, if_false] at e3
      have husedg : Used (ops ++ [o]) g := ⟨o, by simp, hd, origins_mono _ _ hg⟩
      -- the new message and the old ones, whatever the memory
      have split : ∀ (hn : Hdr) (k : Nat) (h' : Hdr) (g' : Nat), (s.msgs ++ [hn])[k]? = some h' →
          (origins ops ++ [(origins ops).length])[k]? = some g' →
          (s.msgs[k]? = some h' ∧ (origins ops)[k]? = some g' ∧ g' < (origins ops).length) ∨
            (k = s.msgs.length ∧ h' = hn ∧ g' = (origins ops).length) := by
        intro hn k h' g' h1 h2
        rcases getElem?_snoc h1 with h1 | ⟨h1, h1'⟩
        · rcases getElem?_snoc h2 with h2 | ⟨h2, h2'⟩
          · refine Or.inl ⟨h1, h2, ?_⟩
            have := I.bound _ _ h2; have := getElem?_lt h2; omega
          · have := getElem?_lt h1; have := I.leng; omega
        · rcases getElem?_snoc h2 with h2 | ⟨h2, h2'⟩
          · have := getElem?_lt h2; have := I.leng; omega
          · exact Or.inr ⟨h1, h1'.symm, h2'.symm⟩
      have build : ∀ (heap' : Heap) (hn : Hdr), heap'.getD 0 [] = [] → s.heap.length ≤ heap'.length → hn.arr ≠ 0 → hn.arr < heap'.length →
          hn.len = h.len + o.data.length → (heap'.getD hn.arr []).take hn.len = (v ++ o.data).map some →
          (∀ (k : Nat) (h' : Hdr), s.msgs[k]? = some h' → h'.arr < s.heap.length →
            (heap'.getD h'.arr []).take h'.len = (s.heap.getD h'.arr []).take h'.len) →
          (∀ (k : Nat) (h' : Hdr), s.msgs[k]? = some h' → h'.arr = hn.arr → h'.arr = h.arr ∧ g ≠ 0) →
          Inv (ops ++ [o]) ⟨heap', s.msgs ++ [hn]⟩ := by
        intro heap' hn z1 z2 n1 n2 n3 n4 old shared
        have hpos := I.pos
        have hposg : 0 < (origins ops).length := by have := getElem?_lt hg; omega
        refine ⟨by rw [e2]; simp [I.lenv], by rw [e3]; simp [I.leng], z1, Nat.lt_of_lt_of_le hpos z2, ?_, ?_, ?_, ?_, ?_⟩
        · rw [e2]
          intro k h' v' h1 h2
          rcases getElem?_snoc h1 with h1 | ⟨h1, h1'⟩
          · rcases getElem?_snoc h2 with h2 | ⟨h2, h2'⟩
            · obtain ⟨b1, b2, b3⟩ := I.val k h' v' h1 h2
              exact ⟨Nat.lt_of_lt_of_le b1 z2, b2, by rw [old k h' h1 b1]; exact b3⟩
            · have := getElem?_lt h1; have := I.lenv; omega
          · rcases getElem?_snoc h2 with h2 | ⟨h2, h2'⟩
            · have := getElem?_lt h2; have := I.lenv; omega
            · subst h1'; subst h2'
              exact ⟨n2, by rw [n3, v2, List.length_append], n4⟩
        · rw [e3]
          intro k k' h1 h2 g' a1 a2 a3 a4
          rcases split hn k h1 g' a1 a3 with ⟨b1, b2, b3⟩ | ⟨b1, b2, b3⟩ <;>
            rcases split hn k' h2 g' a2 a4 with ⟨c1, c2, c3⟩ | ⟨c1, c2, c3⟩
          · exact I.same k k' h1 h2 g' b1 c1 b2 c2
          · omega
          · omega
          · rw [b2, c2]
        · rw [e3]
          intro k h1 g' a1 a2
          rcases split hn k h1 g' a1 a2 with ⟨b1, b2, b3⟩ | ⟨b1, b2, b3⟩
          · exact I.empty k h1 g' b1 b2
          · subst b2; constructor <;> intro <;> omega
        · rw [e3]
          intro k g' a1
          rcases getElem?_snoc a1 with a1 | ⟨a1, a1'⟩
          · exact I.bound k g' a1
          · omega
        · intro k k' h1 h2 g1 g2 a1 a2 a3 a4 hg0 hu harr
          rw [e3] at a3 a4
          rcases split hn k h1 g1 a1 a3 with ⟨b1, b2, b3⟩ | ⟨b1, b2, b3⟩ <;>
            rcases split hn k' h2 g2 a2 a4 with ⟨c1, c2, c3⟩ | ⟨c1, c2, c3⟩
          · obtain ⟨d1, d2⟩ := I.top k k' h1 h2 g1 g2 b1 c1 b2 c2 hg0 (fun x => hu (used_mono x)) harr
            exact ⟨d1, fun hu' => d2 fun x => hu' (used_mono x)⟩
          · -- an old message and the new one share an array
            exfalso
            subst c2
            obtain ⟨d1, d2⟩ := shared k h1 b1 harr.symm
            have hun : ¬ Used ops g := once_last hon hd hg d2
            have := (I.top o.src k h h1 g g1 hsrc b1 hg b2 d2 hun d1).2 (fun x => hu (used_mono x))
            rw [this] at hu
            exact hu husedg
          · subst b2
            obtain ⟨d1, d2⟩ := shared k' h2 c1 harr
            have hun : ¬ Used ops g := once_last hon hd hg d2
            obtain ⟨f1, f2⟩ := I.top o.src k' h h2 g g2 hsrc c1 hg c2 d2 hun d1
            refine ⟨by omega, fun hu' => ?_⟩
            have := f2 fun x => hu' (used_mono x)
            rw [this] at hu'
            exact absurd husedg hu'
          · rw [b2, c2, b3, c3]; exact ⟨Nat.le_refl _, fun _ => rfl⟩
      have hgetset : ∀ (l : Heap) (i j : Nat) (x : List (Option SD)), i < l.length →
          (l.set i x).getD j [] = if j = i then x else l.getD j [] := by
        intro l i j x hi
        rw [List.getD_eq_getElem?_getD, List.getD_eq_getElem?_getD]
        by_cases hji : j = i
        · subst hji; rw [List.getElem?_set_self hi]; simp
        · rw [List.getElem?_set_ne (fun e => hji e.symm), if_neg hji]
      by_cases hfit : h.len + o.data.length ≤ (s.heap.getD h.arr []).length
      · -- in place
        have harr0 : h.arr ≠ 0 := by
          intro h0; rw [h0, I.zero] at hfit; simp only [List.length_nil] at hfit; omega
        have hg0 : g ≠ 0 := fun h0 => harr0 ((I.empty _ _ _ hsrc hg).mp h0)
        have e1 : step spare s o = ⟨s.heap.set h.arr ((s.heap.getD h.arr []).take h.len ++ o.data.map some ++
            (s.heap.getD h.arr []).drop (h.len + o.data.length)), s.msgs ++ [⟨h.arr, h.len + o.data.length⟩]⟩ := by
          simp only [step, hsrc, goAppend]
          rw [if_pos hfit]
        rw [e1]
        have htl : ((s.heap.getD h.arr []).take h.len).length = h.len := by rw [List.length_take]; omega
        refine build _ _ ?_ (by simp) harr0 (by simpa using v1) rfl ?_ ?_ ?_
        · rw [hgetset _ _ _ _ v1, if_neg (fun e => harr0 e.symm)]; exact I.zero
        · rw [hgetset _ _ _ _ v1, if_pos rfl, List.map_append, ← v3]
          rw [List.take_append_of_le_length (by simp only [List.length_append, htl, List.length_map]; omega)]
          rw [List.take_of_length_le (by simp only [List.length_append, htl, List.length_map]; omega)]
        · intro k h' hk hlt
          rw [hgetset _ _ _ _ v1]
          split
          · rename_i harr
            obtain ⟨g', hg'⟩ : ∃ g', (origins ops)[k]? = some g' := ⟨_, List.getElem?_eq_getElem (by rw [← I.leng]; exact getElem?_lt hk)⟩
            have hle := (I.top o.src k h h' g g' hsrc hk hg hg' hg0 (once_last hon hd hg hg0) harr).1
            rw [harr, List.append_assoc, List.take_append_of_le_length (by rw [htl]; exact hle), List.take_take, Nat.min_eq_left hle]
          · rfl
        · intro k h' hk harr
          exact ⟨harr, hg0⟩
      · have e1 : step spare s o = ⟨s.heap ++ [(s.heap.getD h.arr []).take h.len ++ o.data.map some ++
            List.replicate (spare (s.heap.getD h.arr []).length (h.len + o.data.length)) none], s.msgs ++ [⟨s.heap.length, h.len + o.data.length⟩]⟩ := by
          simp only [step, hsrc, goAppend]
          rw [if_neg hfit]
        rw [e1]
        have hpos := I.pos
        have htl : ((s.heap.getD h.arr []).take h.len).length = h.len := by rw [List.length_take]; omega
        have hgl : ∀ (x : List (Option SD)) (j : Nat), j < s.heap.length → (s.heap ++ [x]).getD j [] = s.heap.getD j [] := by
          intro x j hj
          rw [List.getD_eq_getElem?_getD, List.getD_eq_getElem?_getD, List.getElem?_append_left hj]
        refine build _ _ ?_ (by simp) (Nat.ne_of_gt hpos) (by simp) rfl ?_ ?_ ?_
        · rw [hgl _ _ hpos]; exact I.zero
        · simp only
          rw [List.getD_eq_getElem?_getD]
          rw [List.getElem?_concat_length, Option.getD_some, List.map_append, ← v3]
          rw [List.take_append_of_le_length (by simp only [List.length_append, htl, List.length_map]; omega)]
          rw [List.take_of_length_le (by simp only [List.length_append, htl, List.length_map]; omega)]
        · intro k h' _ hlt
          rw [hgl _ _ hlt]
        · intro k h' hk harr
          exfalso
          obtain ⟨v', hv'⟩ : ∃ v', (values ops)[k]? = some v' := ⟨_, List.getElem?_eq_getElem (by rw [← I.lenv]; exact getElem?_lt hk)⟩
          have := (I.val k h' v' hk hv').1
          simp only at harr; omega

theorem inv_run (spare : Nat → Nat → Nat) (ops : List Op) (h : ExtendedOnce ops) : Inv ops (run spare ops) := by
  have gen : ∀ (n : Nat) (ops : List Op), ops.length = n → ExtendedOnce ops → Inv ops (run spare ops) := by
    intro n
    induction n with
    | zero => intro ops hn _; rw [List.length_eq_zero_iff.mp hn]; exact inv_init
    | succ n ih =>
      intro ops hn h
      obtain ⟨l, o, rfl⟩ : ∃ l o, ops = l ++ [o] := by
        refine ⟨ops.dropLast, ops.getLast (by intro h0; simp [h0] at hn), ?_⟩
        rw [List.dropLast_concat_getLast]
      rw [run_snoc]
      exact inv_step spare (ih l (by simpa using hn) (once_prefix h)) h
  exact gen _ ops rfl h
end Syslog5424.Alias
