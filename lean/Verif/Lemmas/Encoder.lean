import Verif.Spec.Encoder
import Verif.Lemmas.SData
import Verif.Lemmas.Text
/-! # Lemmas about the structured data encoder -/
namespace Syslog5424
open Spec

/-! ## encodeAll -/

theorem encodeAll_ok {α : Type} {f : α → Res Bytes} {g : α → Bytes} {l : List α}
    (h : ∀ a ∈ l, f a = .ret (.ok (g a))) : encodeAll f l = .ret (.ok (l.flatMap g)) := by
  induction l with
  | nil => rfl
  | cons a r ih =>
    simp only [encodeAll, h a (by simp), ih (fun x hx => h x (by simp [hx])), Res.bind_ok, List.flatMap_cons]

theorem encodeAll_error {α : Type} {f : α → Res Bytes} {l₁ l₂ : List α} {a : α} {e : Err}
    (h1 : ∀ x ∈ l₁, ∃ b, f x = .ret (.ok b)) (h2 : f a = .ret (.error e)) :
    encodeAll f (l₁ ++ a :: l₂) = .ret (.error e) := by
  induction l₁ with
  | nil => simp [encodeAll, h2]
  | cons x r ih =>
    obtain ⟨b, hb⟩ := h1 x (by simp)
    simp only [List.cons_append, encodeAll, hb, Res.bind_ok, ih (fun y hy => h1 y (by simp [hy])), Res.bind_err]

theorem encodeAll_panic {α : Type} {f : α → Res Bytes} {l₁ l₂ : List α} {a : α}
    (h1 : ∀ x ∈ l₁, ∃ b, f x = .ret (.ok b)) (h2 : f a = .panic) :
    encodeAll f (l₁ ++ a :: l₂) = .panic := by
  induction l₁ with
  | nil => simp [encodeAll, h2]
  | cons x r ih =>
    obtain ⟨b, hb⟩ := h1 x (by simp)
    simp only [List.cons_append, encodeAll, hb, Res.bind_ok, ih (fun y hy => h1 y (by simp [hy])), Res.bind_panic]

/-- If nothing panics or hangs, the result is an error exactly when an item is an error. -/
theorem encodeAll_total {α : Type} {f : α → Res Bytes} {l : List α} (h : ∀ a ∈ l, ∃ r, f a = .ret r) :
    ∃ r, encodeAll f l = .ret r ∧ ((∃ e, r = .error e) ↔ ∃ a ∈ l, ∃ e, f a = .ret (.error e)) := by
  induction l with
  | nil => exact ⟨_, rfl, by simp⟩
  | cons a r ih =>
    obtain ⟨ra, ha⟩ := h a (by simp)
    obtain ⟨rr, hr, hiff⟩ := ih (fun x hx => h x (by simp [hx]))
    cases ra with
    | error e =>
      refine ⟨.error e, by simp [encodeAll, ha], ?_⟩
      simp only [Except.error.injEq, exists_eq', true_iff]
      exact ⟨a, by simp, e, ha⟩
    | ok b =>
      cases rr with
      | error e =>
        refine ⟨.error e, by simp [encodeAll, ha, hr], ?_⟩
        simp only [Except.error.injEq, exists_eq', true_iff] at hiff ⊢
        obtain ⟨x, hx, e', he⟩ := hiff
        exact ⟨x, by simp [hx], e', he⟩
      | ok c =>
        refine ⟨.ok (b ++ c), by simp [encodeAll, ha, hr], ?_⟩
        constructor
        · rintro ⟨e, he⟩; simp at he
        · rintro ⟨x, hx, e, he⟩
          simp only [List.mem_cons] at hx
          rcases hx with rfl | hx
          · rw [ha] at he; simp at he
          · have := hiff.mpr ⟨x, hx, e, he⟩
            simp at this

/-! ## sortKeys -/

theorem u8_lt_iff (a b : UInt8) : a < b ↔ a.toNat < b.toNat := UInt8.lt_iff_toNat_lt

theorem bytesLe_iff (a b : Bytes) : bytesLe a b = true ↔ ¬ b < a := by
  induction a generalizing b with
  | nil => simp [bytesLe]
  | cons x r ih =>
    cases b with
    | nil => simp [bytesLe]
    | cons y s =>
      simp only [bytesLe, List.cons_lt_cons_iff]
      by_cases h1 : x < y
      · have h2 : ¬ y < x := by rw [u8_lt_iff] at *; omega
        have h3 : y ≠ x := by rintro rfl; rw [u8_lt_iff] at h1; omega
        simp [h1, h2, h3]
      · rw [if_neg h1]
        by_cases h2 : x = y
        · subst h2
          have h3 : ¬ x < x := by rw [u8_lt_iff]; omega
          simp [h3, ih]
        · have h3 : y < x := by
            rw [u8_lt_iff] at *
            have : x.toNat ≠ y.toNat := fun e => h2 (UInt8.toNat_inj.mp e)
            omega
          simp [h2, h3]

theorem insertKey_perm {α : Type} (x : Bytes × α) (l : List (Bytes × α)) : (insertKey x l).Perm (x :: l) := by
  induction l with
  | nil => exact .refl _
  | cons y r ih =>
    unfold insertKey
    split
    · exact .refl _
    · exact (List.Perm.cons y ih).trans (.swap x y r)

theorem sortKeys_perm {α : Type} (l : List (Bytes × α)) : (sortKeys l).Perm l := by
  induction l with
  | nil => exact .refl _
  | cons x r ih => exact (insertKey_perm x _).trans (.cons x ih)

theorem insertKey_sorted {α : Type} (x : Bytes × α) (l : List (Bytes × α))
    (h : l.Pairwise (fun a b => ¬ b.1 < a.1)) : (insertKey x l).Pairwise (fun a b => ¬ b.1 < a.1) := by
  induction l with
  | nil => simp [insertKey]
  | cons y r ih =>
    rw [List.pairwise_cons] at h
    unfold insertKey
    split
    · next hle =>
      rw [bytesLe_iff] at hle
      rw [List.pairwise_cons]
      refine ⟨?_, List.pairwise_cons.mpr h⟩
      intro z hz
      simp only [List.mem_cons] at hz
      rcases hz with rfl | hz
      · exact hle
      · intro hzx
        have h1 := h.1 z hz
        rcases Classical.em (x.1 < y.1) with hxy | hxy
        · exact h1 (List.lt_trans hzx hxy)
        · have := List.le_antisymm (as := x.1) (bs := y.1) hle hxy
          rw [this] at hzx; exact h1 hzx
    · next hle =>
      rw [bytesLe_iff, Classical.not_not] at hle
      rw [List.pairwise_cons]
      refine ⟨?_, ih h.2⟩
      intro z hz
      have := (insertKey_perm x r).mem_iff.mp hz
      simp only [List.mem_cons] at this
      rcases this with rfl | hz
      · exact fun hc => absurd (List.lt_trans hle hc) (List.lt_irrefl _)
      · exact h.1 z hz

theorem sortKeys_sorted {α : Type} (l : List (Bytes × α)) :
    (sortKeys l).Pairwise (fun a b => ¬ b.1 < a.1) := by
  induction l with
  | nil => simp [sortKeys]
  | cons x r ih => exact insertKey_sorted x _ ih

/-- With distinct keys the order is strict. -/
theorem sortKeys_strict {α : Type} (l : List (Bytes × α)) (hn : (l.map (·.1)).Nodup) :
    (sortKeys l).Pairwise (fun a b => a.1 < b.1) := by
  have h1 := sortKeys_sorted l
  have h2 : ((sortKeys l).map (·.1)).Nodup := ((sortKeys_perm l).map _).nodup_iff.mpr hn
  rw [List.nodup_iff_pairwise_ne, List.pairwise_map] at h2
  refine (h1.and h2).imp ?_
  rintro a b ⟨ha, hb⟩
  apply Classical.byContradiction
  intro hc
  exact hb (List.le_antisymm (as := a.1) (bs := b.1) ha hc)

/-- A strictly sorted list is determined by its elements. -/
theorem strict_perm_eq {α : Type} {l l' : List (Bytes × α)} (hp : l.Perm l')
    (h : l.Pairwise (fun a b => a.1 < b.1)) (h' : l'.Pairwise (fun a b => a.1 < b.1)) : l = l' := by
  induction l generalizing l' with
  | nil => exact hp.nil_eq
  | cons a r ih =>
    cases l' with
    | nil => exact absurd hp.symm.nil_eq (by simp)
    | cons b s =>
      rw [List.pairwise_cons] at h h'
      have hab : a = b := by
        have ha : a ∈ b :: s := hp.mem_iff.mp (by simp)
        have hb : b ∈ a :: r := hp.mem_iff.mpr (by simp)
        simp only [List.mem_cons] at ha hb
        rcases ha with ha | ha
        · exact ha
        · rcases hb with hb | hb
          · exact hb.symm
          · exact absurd (List.lt_trans (h.1 b hb) (h'.1 a ha)) (List.lt_irrefl _)
      subst hab
      rw [ih ((List.perm_cons a).mp hp) h.2 h'.2]

theorem sortKeys_eq_of_perm {α : Type} {l l' : List (Bytes × α)} (hp : l.Perm l')
    (hn : (l.map (·.1)).Nodup) : sortKeys l = sortKeys l' := by
  have hn' : (l'.map (·.1)).Nodup := (hp.map _).nodup_iff.mp hn
  exact strict_perm_eq ((sortKeys_perm l).trans (hp.trans (sortKeys_perm l').symm))
    (sortKeys_strict l hn) (sortKeys_strict l' hn')

/-! ## tags -/

theorem tagName_eq (tag : Bytes) : (parseTag tag).1 = tagName tag := by
  have key : ∀ p : Bytes, 44 ∉ p → p.takeWhile (fun c => decide (c ≠ 44)) = p := by
    intro p hp
    induction p with
    | nil => rfl
    | cons b r ih =>
      simp only [List.mem_cons, not_or] at hp
      rw [List.takeWhile_cons_of_pos (by simpa using Ne.symm hp.1), ih hp.2]
  unfold parseTag tagName
  split
  · next i h =>
    obtain ⟨p, q, rfl, rfl, hp⟩ := indexByte_some h
    simp only [List.take_left]
    rw [List.takeWhile_append_of_pos (by
      intro a ha; simp only [ne_eq, decide_eq_true_eq]; rintro rfl; exact hp ha)]
    simp
  · next h => rw [key tag (indexByte_none.mp h)]

theorem splitComma_ne (s : Bytes) : splitComma s ≠ [] := by
  cases s with
  | nil => simp [splitComma]
  | cons c r =>
    unfold splitComma
    split
    · simp
    · split <;> simp

/-- The first item of a split: the bytes before the first comma. -/
theorem splitComma_head (s x : Bytes) : (splitComma s).head? = some x ↔
    44 ∉ x ∧ ∃ post, s = x ++ post ∧ (post = [] ∨ post.head? = some 44) := by
  induction s generalizing x with
  | nil =>
    simp only [splitComma, List.head?_cons, Option.some.injEq]
    constructor
    · rintro rfl; exact ⟨by simp, [], rfl, Or.inl rfl⟩
    · rintro ⟨_, post, h, _⟩
      have := (List.append_eq_nil_iff.mp h.symm).1
      exact this.symm
  | cons c r ih =>
    unfold splitComma
    split
    · next h =>
      subst h
      simp only [List.head?_cons, Option.some.injEq]
      constructor
      · rintro rfl; exact ⟨by simp, 44 :: r, rfl, Or.inr rfl⟩
      · rintro ⟨hx, post, h, _⟩
        cases x with
        | nil => rfl
        | cons d x' =>
          simp only [List.cons_append, List.cons.injEq] at h
          exact absurd h.1 (by intro e; apply hx; simp [← e])
    · next hc =>
      have hh : ∃ h t, splitComma r = h :: t := by
        cases hs : splitComma r with
        | nil => exact absurd hs (splitComma_ne r)
        | cons h t => exact ⟨h, t, rfl⟩
      obtain ⟨h, t, hs⟩ := hh
      rw [hs]
      simp only [List.head?_cons, Option.some.injEq]
      have ih' := ih h
      rw [hs] at ih'
      simp only [List.head?_cons, true_iff] at ih'
      constructor
      · rintro rfl
        obtain ⟨h1, post, h2, h3⟩ := ih'
        refine ⟨?_, post, by rw [h2]; rfl, h3⟩
        simp only [List.mem_cons, not_or]; exact ⟨fun e => hc e.symm, h1⟩
      · rintro ⟨hx, post, h1, h2⟩
        cases x with
        | nil =>
          rcases h2 with rfl | h2
          · simp at h1
          · simp only [List.nil_append] at h1
            rw [← h1] at h2
            simp only [List.head?_cons, Option.some.injEq] at h2
            exact absurd h2 hc
        | cons d x' =>
          simp only [List.cons_append, List.cons.injEq] at h1
          simp only [List.mem_cons, not_or] at hx
          have := (ih x').mpr ⟨hx.2, post, h1.2, h2⟩
          rw [hs] at this
          simp only [List.head?_cons, Option.some.injEq] at this
          rw [h1.1, this]

theorem splitComma_cons_of_ne {c : UInt8} (h : c ≠ 44) (r : Bytes) :
    ∃ y t, splitComma r = y :: t ∧ splitComma (c :: r) = (c :: y) :: t := by
  cases hs : splitComma r with
  | nil => exact absurd hs (splitComma_ne r)
  | cons y t => exact ⟨y, t, rfl, by rw [splitComma, if_neg h, hs]⟩

theorem splitComma_cons_comma (r : Bytes) : splitComma (44 :: r) = [] :: splitComma r := by
  rw [splitComma, if_pos rfl]

/-- The items of a split after the first one: the maximal pieces without commas behind a comma. -/
theorem splitComma_tail (s x : Bytes) : x ∈ (splitComma s).tail ↔
    44 ∉ x ∧ ∃ pre post, s = pre ++ 44 :: (x ++ post) ∧ (post = [] ∨ post.head? = some 44) := by
  induction s with
  | nil => simp [splitComma]
  | cons c r ih =>
    by_cases hc : c = 44
    · subst hc
      rw [splitComma_cons_comma, List.tail_cons]
      have hm : x ∈ splitComma r ↔ (splitComma r).head? = some x ∨ x ∈ (splitComma r).tail := by
        cases splitComma r with
        | nil => simp
        | cons y t => simp [eq_comm]
      rw [hm, splitComma_head, ih]
      constructor
      · rintro (⟨h1, post, h2, h3⟩ | ⟨h1, pre, post, h2, h3⟩)
        · exact ⟨h1, [], post, by rw [h2]; rfl, h3⟩
        · exact ⟨h1, 44 :: pre, post, by rw [h2]; rfl, h3⟩
      · rintro ⟨h1, pre, post, h2, h3⟩
        cases pre with
        | nil =>
          simp only [List.nil_append, List.cons.injEq, true_and] at h2
          exact Or.inl ⟨h1, post, h2, h3⟩
        | cons p pre =>
          simp only [List.cons_append, List.cons.injEq] at h2
          exact Or.inr ⟨h1, pre, post, h2.2, h3⟩
    · obtain ⟨y, t, h1, h2⟩ := splitComma_cons_of_ne hc r
      rw [h2, List.tail_cons]
      rw [h1, List.tail_cons] at ih
      rw [ih]
      constructor
      · rintro ⟨h1, pre, post, h2, h3⟩
        exact ⟨h1, c :: pre, post, by rw [h2]; rfl, h3⟩
      · rintro ⟨h1, pre, post, h2, h3⟩
        cases pre with
        | nil =>
          simp only [List.nil_append, List.cons.injEq] at h2
          exact absurd h2.1 hc
        | cons p pre =>
          simp only [List.cons_append, List.cons.injEq] at h2
          exact ⟨h1, pre, post, h2.2, h3⟩

theorem parseTag_options (tag : Bytes) : (parseTag tag).2 = (splitComma tag).tail := by
  have h0 : ∀ p : Bytes, 44 ∉ p → (splitComma p).tail = [] := by
    intro p hp
    apply List.eq_nil_iff_forall_not_mem.mpr
    intro x hx
    obtain ⟨_, pre, post, h, _⟩ := (splitComma_tail p x).mp hx
    apply hp; rw [h]; simp
  have h1 : ∀ (p q : Bytes), 44 ∉ p → (splitComma (p ++ 44 :: q)).tail = splitComma q := by
    intro p q hp
    induction p with
    | nil => simp [splitComma_cons_comma]
    | cons b r ih =>
      simp only [List.mem_cons, not_or] at hp
      obtain ⟨y, t, e1, e2⟩ := splitComma_cons_of_ne (Ne.symm hp.1) (r ++ 44 :: q)
      have := ih hp.2
      rw [e1] at this
      rw [List.cons_append, e2]
      simpa using this
  unfold parseTag
  split
  · next i h =>
    obtain ⟨p, q, rfl, rfl, hp⟩ := indexByte_some h
    rw [h1 p q hp, List.drop_length_add_append]
    rfl
  · next h => exact (h0 tag (indexByte_none.mp h)).symm

theorem mandatory_iff (tag : Bytes) :
    tagContains (parseTag tag).2 b!"mandatory" = true ↔ HasMandatory tag := by
  have : tagContains (parseTag tag).2 b!"mandatory" = true ↔ b!"mandatory" ∈ (parseTag tag).2 := by
    simp [tagContains]
  rw [this, parseTag_options, splitComma_tail]
  unfold HasMandatory
  constructor
  · rintro ⟨_, pre, post, h1, h2⟩
    exact ⟨pre, post, by rw [h1]; simp, h2⟩
  · rintro ⟨pre, post, h1, h2⟩
    exact ⟨by decide, pre, post, by rw [h1]; simp, h2⟩

/-- `getName` in terms of the specification. -/
theorem getName_eq (f : GoField) (h : f.tag ≠ b!"-") :
    (getName f).1 = paramName f ∧ ((getName f).2 = true ↔ HasMandatory f.tag) := by
  unfold getName
  rw [if_neg h]
  constructor
  · simp only
    unfold paramName
    rw [tagName_eq]
    by_cases hv : isValidTag (tagName f.tag) = true
    · rw [if_pos hv, if_pos ((isValidTag_iff _).mp hv)]
    · rw [if_neg hv, if_neg (fun hc => hv ((isValidTag_iff _).mpr hc))]
  · exact mandatory_iff f.tag

theorem missing_iff (t : GoType) (v : GoVal t) : isEmptyValue t v = true ↔ Missing t v := by
  cases t with
  | marshaler => exact Iff.rfl
  | scalar b =>
    cases b with
    | false => exact ⟨fun h => Bool.noConfusion h, fun h => False.elim h⟩
    | true =>
      exact (by simp : ∀ w : Bytes, (w.length == 0) = true ↔ w = []) v
  | ptr t =>
    exact (by simp : ∀ w : Option (GoVal t), w.isNone = true ↔ w = none) v
  | iface =>
    exact (by simp : ∀ w : Option Unit, w.isNone = true ↔ w = none) v
  | slice t =>
    change Option (List (GoVal t)) at v
    show (match v with | none => true | some l => l.length == 0) = true ↔ v = none ∨ v = some []
    cases v <;> simp
  | array t =>
    exact (by simp : ∀ w : List (GoVal t), (w.length == 0) = true ↔ w = []) v
  | unsupported => exact Iff.rfl

/-! ## values -/

theorem plain_builds {t : GoType} (h : Plain t) : encoderBuilds t = true := by cases h <;> rfl
theorem noIface_builds {t : GoType} (h : NoIface t) : encoderBuilds t = true := by cases h <;> rfl

theorem prefixedWrite_eq {name : Bytes} (hn : name ≠ []) (v : Bytes) :
    prefixedWrite name v = b!" " ++ paramText (name, escaped v) := by
  have hl : name.length ≠ 0 := by simpa using hn
  simp only [prefixedWrite, hl, if_false, escape_eq, paramText]
  simp

theorem encodeValue_plain {t : GoType} (h : Plain t) {name : Bytes} (hn : name ≠ []) (v : GoVal t) :
    encodeValue false t v name =
      .ret (.ok (((leaves t v).map fun x => b!" " ++ paramText (name, escaped x)).flatten)) := by
  induction h with
  | scalar b =>
    have key : ∀ w : Bytes, (Out.ret (Except.ok (prefixedWrite name w)) : Res Bytes) =
        .ret (.ok ((([w] : List Bytes).map fun x => b!" " ++ paramText (name, escaped x)).flatten)) := by
      intro w; rw [prefixedWrite_eq hn]; simp
    exact key v
  | ptr _ ih =>
    cases v with
    | none => rfl
    | some w => exact ih w
  | slice ht ih =>
    cases v with
    | none => rfl
    | some l =>
      show (if _ then _ else _) = _
      rw [if_pos (plain_builds ht), encodeAll_ok (fun a _ => ih a)]
      simp only [leaves, List.map_flatMap]
      congr 2
      induction l with
      | nil => rfl
      | cons a r ihr => rw [List.flatMap_cons, List.flatMap_cons, List.flatten_append, ihr]

theorem encodeValue_total {t : GoType} (h : NoIface t) (name : Bytes) (v : GoVal t) :
    ∃ r, encodeValue false t v name = .ret r ∧ ((∃ e, r = .error e) ↔ Unknown t v) := by
  induction h with
  | scalar b => exact ⟨_, rfl, by simp [Unknown]⟩
  | unsupported => exact ⟨_, rfl, by simp [Unknown]⟩
  | array _ _ => exact ⟨_, rfl, by simp [Unknown]⟩
  | ptr _ ih =>
    cases v with
    | none => exact ⟨_, rfl, by simp [Unknown]⟩
    | some w => exact ih w
  | slice ht ih =>
    cases v with
    | none => exact ⟨_, rfl, by simp [Unknown]⟩
    | some l =>
      rw [encodeValue]
      simp only [noIface_builds ht, if_true]
      obtain ⟨r, h1, h2⟩ := encodeAll_total (f := fun w => encodeValue false _ w name) (l := l)
        (fun a _ => (ih a).imp fun _ h => h.1)
      refine ⟨r, h1, h2.trans ?_⟩
      simp only [Unknown]
      constructor
      · rintro ⟨a, ha, e, he⟩
        obtain ⟨r', h3, h4⟩ := ih a
        refine ⟨a, ha, h4.mp ⟨e, ?_⟩⟩
        rw [h3] at he; simpa using he
      · rintro ⟨a, ha, hu⟩
        obtain ⟨r', h3, h4⟩ := ih a
        obtain ⟨e, rfl⟩ := h4.mpr hu
        exact ⟨a, ha, e, h3⟩

end Syslog5424
