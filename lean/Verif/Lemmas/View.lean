import Verif.Lemmas.Parse
import Verif.Lemmas.Text
/-! # What the accessors of a parsed message return -/
namespace Syslog5424
open Spec

/-- A message whose offsets describe its buffer: header fields, elements, and what follows them. -/
inductive View : MsgImm → List Bytes → List Bytes → Option Bytes → Prop
  | dash {fs : List Bytes} {spare : Bytes} : fs.length = 6 → (∀ f ∈ fs, RawField f) →
      View ⟨⟨headerText fs ++ [DASH], spare⟩,
        headerIndex 0 fs ++ [(((headerText fs).length + 2 : Nat) : Int)], -1⟩ fs [] none
  | dashText {fs : List Bytes} {t spare : Bytes} : fs.length = 6 → (∀ f ∈ fs, RawField f) →
      View ⟨⟨headerText fs ++ [DASH, SP] ++ t, spare⟩,
        headerIndex 0 fs ++ [(((headerText fs).length + 1 : Nat) : Int)],
        (((headerText fs).length + 2 : Nat) : Int)⟩ fs [] (some (SP :: t))
  | sd {fs xs : List Bytes} {o : Option Bytes} {spare : Bytes} : fs.length = 6 → (∀ f ∈ fs, RawField f) →
      (∀ x ∈ xs, Element x) → o ≠ some [] →
      View ⟨⟨headerText fs ++ xs.flatten ++ o.getD [], spare⟩,
        headerIndex 0 fs ++ elemIndex (headerText fs).length xs, textPos (headerText fs).length xs o⟩ fs xs o

theorem Spec.Items.spec {b : Bytes} {xs : List Bytes} {o : Option Bytes} (h : Items b xs o) :
    b = xs.flatten ++ o.getD [] ∧ (∀ x ∈ xs, Element x) ∧ o ≠ some [] := by
  induction h with
  | stop h => exact ⟨by simp, by simpa using h, by simp⟩
  | quiet h => exact ⟨by simp, by simp, by simpa using h.ne_nil⟩
  | more h _ ih =>
    obtain ⟨h1, h2, h3⟩ := ih
    refine ⟨by rw [h1]; simp, ?_, h3⟩
    intro x hx
    simp only [List.mem_cons] at hx
    rcases hx with rfl | hx
    · exact h
    · exact h2 x hx

theorem Layout.view {data : Slice} {fs xs o idx txt} (h : Layout data.vis fs xs o idx txt) :
    View ⟨data, idx, txt⟩ fs xs o := by
  obtain ⟨v, s⟩ := data
  simp only at h
  cases h with
  | dash h1 h2 => exact .dash h1 h2
  | dashText h1 h2 => exact .dashText h1 h2
  | @sd _ _ _ tail h1 h2 h3 h4 =>
    obtain ⟨e1, e2, e3⟩ := h3.spec
    have := View.sd (spare := s) h1 h2 e2 e3
    rw [e1, ← List.append_assoc]; exact this

theorem View.six {m : MsgImm} {fs xs o} (h : View m fs xs o) : fs.length = 6 := by cases h <;> assumption
theorem View.raw {m : MsgImm} {fs xs o} (h : View m fs xs o) : ∀ f ∈ fs, RawField f := by cases h <;> assumption
theorem View.elem {m : MsgImm} {fs xs o} (h : View m fs xs o) : ∀ x ∈ xs, Element x := by
  cases h with
  | dash => simp
  | dashText => simp
  | sd _ _ h => exact h

theorem View.ne_zero {m : MsgImm} {fs xs o} (h : View m fs xs o) : m ≠ MsgImm.zero := by
  rintro rfl
  have h6 := h.six
  generalize hz : MsgImm.zero = z at h
  have key : ∀ l : List Int, headerIndex 0 fs ++ l ≠ [] := by
    intro l
    cases fs with
    | nil => simp at h6
    | cons f r => simp [headerIndex]
  cases h with
  | dash => exact key _ (congrArg MsgImm.index hz).symm
  | dashText => exact key _ (congrArg MsgImm.index hz).symm
  | sd => exact key _ (congrArg MsgImm.index hz).symm

/-- `sub` at natural offsets given by a decomposition. -/
theorem sub_mid {buf : Slice} {pre x post : Bytes} (h : buf.vis = pre ++ x ++ post) {i j : Int}
    (hi : i = pre.length) (hj : j = ((pre.length + x.length : Nat) : Int)) :
    buf.sub i j = .ret ⟨x, post ++ buf.spare⟩ := by
  subst hi; subst hj
  rw [Slice.sub_nat (by omega) (by simp [Slice.len, h])]
  have e : pre.length + x.length = (pre ++ x).length := by simp
  rw [h, e, List.take_left, List.drop_left, List.drop_left]

theorem View.index_take {m : MsgImm} {fs xs o} (h : View m fs xs o) :
    ∃ more tail, m.index = headerIndex 0 fs ++ more ∧ m.buffer.vis = headerText fs ++ tail := by
  cases h with
  | dash => exact ⟨_, _, rfl, rfl⟩
  | dashText => exact ⟨_, [DASH, SP] ++ _, rfl, by simp; rfl⟩
  | sd => exact ⟨_, _, rfl, List.append_assoc _ _ _⟩

theorem View.fields {m : MsgImm} {fs xs o} (h : View m fs xs o) :
    ∃ a b c d e f, fs = [a, b, c, d, e, f] ∧
      m.priority = .ret (Priority.unmarshal 0 a).1 ∧
      m.field 0 = .ret b ∧ m.field 1 = .ret c ∧ m.field 2 = .ret d ∧ m.field 3 = .ret e ∧ m.field 4 = .ret f ∧
      m.idx 5 = .ret (((headerText fs).length : Int) - 1) := by
  obtain ⟨more, tail, hi, hb⟩ := h.index_take
  have h6 := h.six
  match fs, h6 with
  | [a, b, c, d, e, f], _ =>
    refine ⟨a, b, c, d, e, f, rfl, ?_⟩
    simp only [headerIndex, List.cons_append, List.nil_append] at hi
    simp only [headerText_cons] at hb
    have hnil : headerText [] = [] := rfl
    rw [hnil] at hb
    have i0 : m.idx 0 = .ret ((0 + a.length : Nat) : Int) := by unfold MsgImm.idx; rw [hi]; rfl
    have i1 : m.idx 1 = .ret ((0 + a.length + 1 + b.length : Nat) : Int) := by unfold MsgImm.idx; rw [hi]; rfl
    have i2 : m.idx 2 = .ret ((0 + a.length + 1 + b.length + 1 + c.length : Nat) : Int) := by
      unfold MsgImm.idx; rw [hi]; rfl
    have i3 : m.idx 3 = .ret ((0 + a.length + 1 + b.length + 1 + c.length + 1 + d.length : Nat) : Int) := by
      unfold MsgImm.idx; rw [hi]; rfl
    have i4 : m.idx 4 = .ret ((0 + a.length + 1 + b.length + 1 + c.length + 1 + d.length + 1 + e.length : Nat) : Int) := by
      unfold MsgImm.idx; rw [hi]; rfl
    have i5 : m.idx 5 = .ret ((0 + a.length + 1 + b.length + 1 + c.length + 1 + d.length + 1 + e.length + 1 + f.length : Nat) : Int) := by
      unfold MsgImm.idx; rw [hi]; rfl
    refine ⟨?_, ?_, ?_, ?_, ?_, ?_, ?_⟩
    · unfold MsgImm.priority
      rw [i0]; simp only [Out.ret_bind]
      rw [sub_mid (pre := []) (x := a) (post := SP :: (b ++ SP :: (c ++ SP :: (d ++ SP :: (e ++ SP :: (f ++ SP :: tail))))))
        (by rw [hb]; simp) (by simp) (by simp)]
      rfl
    · unfold MsgImm.field
      rw [i0, i1]; simp only [Out.ret_bind]
      rw [sub_mid (pre := a ++ [SP]) (x := b) (post := SP :: (c ++ SP :: (d ++ SP :: (e ++ SP :: (f ++ SP :: tail)))))
        (by rw [hb]; simp) (by simp) (by simp)]
      rfl
    · unfold MsgImm.field
      rw [i1, i2]; simp only [Out.ret_bind]
      rw [sub_mid (pre := a ++ [SP] ++ b ++ [SP]) (x := c) (post := SP :: (d ++ SP :: (e ++ SP :: (f ++ SP :: tail))))
        (by rw [hb]; simp) (by simp; omega) (by simp; omega)]
      rfl
    · unfold MsgImm.field
      rw [i2, i3]; simp only [Out.ret_bind]
      rw [sub_mid (pre := a ++ [SP] ++ b ++ [SP] ++ c ++ [SP]) (x := d) (post := SP :: (e ++ SP :: (f ++ SP :: tail)))
        (by rw [hb]; simp) (by simp; omega) (by simp; omega)]
      rfl
    · unfold MsgImm.field
      rw [i3, i4]; simp only [Out.ret_bind]
      rw [sub_mid (pre := a ++ [SP] ++ b ++ [SP] ++ c ++ [SP] ++ d ++ [SP]) (x := e) (post := SP :: (f ++ SP :: tail))
        (by rw [hb]; simp) (by simp; omega) (by simp; omega)]
      rfl
    · unfold MsgImm.field
      rw [i4, i5]; simp only [Out.ret_bind]
      rw [sub_mid (pre := a ++ [SP] ++ b ++ [SP] ++ c ++ [SP] ++ d ++ [SP] ++ e ++ [SP]) (x := f) (post := SP :: tail)
        (by rw [hb]; simp) (by simp; omega) (by simp; omega)]
      rfl
    · rw [i5]
      congr 1
      simp [headerText]; omega

/-- The text accessor: everything behind the byte that follows the structured data. -/
theorem View.textOf {m : MsgImm} {fs xs o} (h : View m fs xs o) :
    m.textOf = .ret ((o.getD []).drop 1) := by
  cases h with
  | dash => rfl
  | @dashText fs t spare h1 h2 =>
    unfold MsgImm.textOf
    rw [if_neg (by simp only; omega), Slice.from_nat (by simp)]
    simp only [Out.ret_bind, List.drop_succ_cons, List.drop_zero]
    have : (headerText fs).length + 2 = (headerText fs ++ [DASH, SP]).length := by simp
    rw [this, List.drop_left]; rfl
  | @sd fs xs o spare h1 h2 h3 h4 =>
    cases o with
    | none => rfl
    | some q =>
      unfold MsgImm.textOf
      have hq : 0 < q.length := by
        have : q ≠ [] := fun e => h4 (by rw [e])
        exact List.length_pos_iff.mpr this
      have ht : ¬ textPos (headerText fs).length xs (some q) < 1 := by simp only [textPos]; omega
      rw [if_neg ht]
      show (Slice.mk (headerText fs ++ xs.flatten ++ q) spare).from_
        (((headerText fs).length + xs.flatten.length + 1 : Nat) : Int) >>= _ = _
      rw [Slice.from_nat (by simp; omega)]
      simp only [Out.ret_bind]
      have : (headerText fs).length + xs.flatten.length + 1 = (headerText fs ++ xs.flatten).length + 1 := by
        simp only [List.length_append]
      rw [this, List.drop_length_add_append]; rfl

theorem View.string {m : MsgImm} {fs xs o} (h : View m fs xs o) :
    ∃ sd, m.string = headerText fs ++ sd ++ o.getD [] ∧
      ((sd = [DASH] ∧ xs = [] ∧ (o = none ∨ ∃ t, o = some (SP :: t))) ∨ sd = xs.flatten) := by
  cases h with
  | dash => exact ⟨[DASH], by simp [MsgImm.string], by simp⟩
  | dashText h6 => exact ⟨[DASH], by simp [MsgImm.string], by simp⟩
  | @sd fs xs o spare h6 h2 h3 h4 => exact ⟨xs.flatten, rfl, Or.inr rfl⟩

/-- What decoding the elements one after the other gives; `following` are the bytes behind the last one. -/
def decodeAll (reg : List SDID) (following : Bytes) : List Bytes → Out (List SD)
  | [] => .ret []
  | x :: r => do
    let o ← registryFound reg ⟨x, r.flatten ++ following⟩
    let l ← decodeAll reg following r
    match o with
    | some sd => return sd :: l
    | none => return l

theorem sdItems_eq (reg : List SDID) (buffer : Slice) (xs : List Bytes) (pre post : Bytes)
    (h : buffer.vis = pre ++ xs.flatten ++ post) :
    MsgImm.sdItems reg buffer pre.length (elemIndex pre.length xs) = decodeAll reg (post ++ buffer.spare) xs := by
  induction xs generalizing pre with
  | nil => rfl
  | cons x r ih =>
    unfold MsgImm.sdItems elemIndex decodeAll
    simp only
    rw [sub_mid (pre := pre) (x := x) (post := r.flatten ++ post) (by rw [h]; simp) rfl rfl]
    simp only [Out.ret_bind, List.append_assoc]
    have := ih (pre ++ x) (by rw [h]; simp)
    rw [List.length_append] at this
    rw [this]
    rfl

/-- The structured data accessor. -/
theorem View.structuredData {m : MsgImm} {fs xs o} (h : View m fs xs o) (reg : List SDID) :
    m.structuredData reg =
      if xs = [] ∨ (xs.length = 1 ∧ xs.flatten.head? = some DASH) then .ret []
      else decodeAll reg (o.getD [] ++ m.buffer.spare) xs := by
  obtain ⟨_, _, _, _, _, _, hfs, _, _, _, _, _, _, h5⟩ := h.fields
  have h6 := h.six
  unfold MsgImm.structuredData
  cases h with
  | dash =>
    rw [if_pos (Or.inl rfl), h5]
    simp only [List.length_append, headerIndex_length, h6, List.length_cons, List.length_nil]
    simp only [Nat.reduceAdd, Nat.reduceSub, Nat.lt_irrefl, if_false, Out.ret_bind, if_true]
    rw [if_neg (by decide)]
    rw [show ((headerText fs).length : Int) - 1 + 1 = ((headerText fs).length : Nat) by omega,
      Slice.at_nat (b := DASH) (by simp)]
    rfl
  | @dashText _ t =>
    rw [if_pos (Or.inl rfl), h5]
    simp only [List.length_append, headerIndex_length, h6, List.length_cons, List.length_nil]
    simp only [Nat.reduceAdd, Nat.reduceSub, Nat.lt_irrefl, if_false, Out.ret_bind, if_true]
    rw [if_neg (by decide)]
    rw [show ((headerText fs).length : Int) - 1 + 1 = ((headerText fs).length : Nat) by omega,
      Slice.at_nat (b := DASH) (by simp)]
    rfl
  | @sd fs xs o spare _ h2 h3 h4 =>
    rw [h5]
    simp only [List.length_append, headerIndex_length, h6, elemIndex_length, Out.ret_bind]
    rw [if_neg (by omega)]
    have hdrop : (headerIndex 0 fs ++ elemIndex (headerText fs).length xs).drop 6 =
        elemIndex (headerText fs).length xs := by
      have : 6 = (headerIndex 0 fs).length := by rw [headerIndex_length, h6]
      rw [this, List.drop_left]
    have hst : ((headerText fs).length : Int) - 1 + 1 = ((headerText fs).length : Nat) := by omega
    rw [hdrop, hst]
    have hit := sdItems_eq reg ⟨headerText fs ++ xs.flatten ++ o.getD [], spare⟩ xs (headerText fs) (o.getD []) rfl
    rw [hit]
    match xs, h3 with
    | [], _ => rw [if_pos (by simp), if_pos (Or.inl rfl)]
    | [x], h3 =>
      have hx := (h3 x (by simp)).ne_nil
      rw [if_neg (by simp)]
      cases x with
      | nil => exact absurd rfl hx
      | cons c x =>
        rw [Slice.at_nat (b := c) (by simp)]
        simp only [List.length_cons, List.length_nil, Out.ret_bind]
        rw [if_pos (by trivial)]
        by_cases hc : c = DASH
        · subst hc
          rw [if_pos rfl, if_pos (by simp)]; rfl
        · rw [if_neg hc, if_neg (by simp [hc])]
    | x :: y :: r, _ =>
      simp only [List.length_cons]
      rw [if_neg (by omega), if_neg (by omega), if_neg (by simp)]

/-- With an empty registry decoding never panics; with timequality registered it does not if 12 bytes are
available behind the start of each element. -/
theorem decodeAll_total (reg : List SDID) (following : Bytes) (xs : List Bytes)
    (h : ∀ l x r, xs = l ++ x :: r → ∃ o, registryFound reg ⟨x, r.flatten ++ following⟩ = .ret o) :
    ∃ l, decodeAll reg following xs = .ret l := by
  induction xs with
  | nil => exact ⟨[], rfl⟩
  | cons x r ih =>
    obtain ⟨o, ho⟩ := h [] x r rfl
    obtain ⟨l, hl⟩ := ih (fun l y r' e => h (x :: l) y r' (by rw [e]; rfl))
    unfold decodeAll
    rw [ho, hl]
    cases o <;> exact ⟨_, rfl⟩

end Syslog5424
