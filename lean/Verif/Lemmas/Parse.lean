import Verif.Model.Parse
import Verif.Spec.Frame
import Verif.Lemmas.Transport
import Verif.Lemmas.Found
/-! # Lemmas about `Parse` -/
namespace Syslog5424
open Spec

/-! ## searchNextSep -/

theorem searchNextSep_ok {d : Slice} {c : UInt8} {n : Nat} :
    searchNextSep d c = .ok n ↔ ∃ p q, d.vis = p ++ c :: q ∧ p.length = n ∧ c ∉ p ∧ 0 < n := by
  unfold searchNextSep
  constructor
  · intro h
    split at h
    · simp at h
    · simp at h
    · next pos h1 h2 =>
      simp only [Except.ok.injEq] at h; subst h
      obtain ⟨p, q, e1, e2, e3⟩ := indexByte_some h2
      refine ⟨p, q, e1, e2, e3, ?_⟩
      rcases Nat.eq_zero_or_pos pos with h0 | h0
      · exact absurd h0 h1
      · exact h0
  · rintro ⟨p, q, e1, e2, e3, e4⟩
    rw [e1, indexByte_append e3, e2]
    cases n with
    | zero => omega
    | succ n => rfl

theorem searchNextSep_cases (d : Slice) (c : UInt8) :
    (searchNextSep d c = .error .posNotFound ∧ c ∉ d.vis) ∨
    (searchNextSep d c = .error .pos0 ∧ ∃ q, d.vis = c :: q) ∨
    (∃ p q, d.vis = p ++ c :: q ∧ c ∉ p ∧ p ≠ [] ∧ searchNextSep d c = .ok p.length) := by
  cases h : indexByte c d.vis with
  | none => exact Or.inl ⟨by simp [searchNextSep, h], indexByte_none.mp h⟩
  | some i =>
    obtain ⟨p, q, e1, e2, e3⟩ := indexByte_some h
    cases p with
    | nil =>
      subst e2
      exact Or.inr (Or.inl ⟨by simp [searchNextSep, h], q, e1⟩)
    | cons a p =>
      exact Or.inr (Or.inr ⟨a :: p, q, e1, e3, by simp,
        searchNextSep_ok.mpr ⟨a :: p, q, e1, rfl, e3, by simp⟩⟩)

/-! ## the header loop -/

/-- End offsets of header fields laid out from `start`. -/
def headerIndex : Nat → List Bytes → List Int
  | _, [] => []
  | start, f :: r => ((start + f.length : Nat) : Int) :: headerIndex (start + f.length + 1) r

theorem headerIndex_length (s : Nat) (fs : List Bytes) : (headerIndex s fs).length = fs.length := by
  induction fs generalizing s with
  | nil => rfl
  | cons f r ih => simp [headerIndex, ih]

theorem headerText_cons (f : Bytes) (fs : List Bytes) : headerText (f :: fs) = f ++ SP :: headerText fs := by
  simp [headerText]

theorem headerText_append (fs gs : List Bytes) : headerText (fs ++ gs) = headerText fs ++ headerText gs := by
  simp [headerText]

theorem headerIndex_append (s : Nat) (fs gs : List Bytes) :
    headerIndex s (fs ++ gs) = headerIndex s fs ++ headerIndex (s + (headerText fs).length) gs := by
  induction fs generalizing s with
  | nil => simp [headerIndex, headerText]
  | cons f r ih =>
    simp only [List.cons_append, headerIndex, ih, headerText_cons, List.length_append, List.length_cons]
    congr 3
    omega

/-- The header loop either fails or finds `n` fields. -/
theorem fieldLoop_cases (data : Slice) (n : Nat) (pre : Bytes) (idx : List Int) (rem : Bytes)
    (hd : data.vis = pre ++ rem) :
    (∃ e, fieldLoop data n pre.length idx = .ret (.error e) ∧
      ¬ ∃ fs tail, fs.length = n ∧ (∀ f ∈ fs, RawField f) ∧ rem = headerText fs ++ tail) ∨
    (∃ fs tail, fs.length = n ∧ (∀ f ∈ fs, RawField f) ∧ rem = headerText fs ++ tail ∧
      fieldLoop data n pre.length idx =
        .ret (.ok (pre.length + (headerText fs).length, idx ++ headerIndex pre.length fs))) := by
  induction n generalizing pre idx rem with
  | zero =>
    right
    exact ⟨[], rem, rfl, by simp, by simp [headerText], by simp [fieldLoop, headerText, headerIndex]⟩
  | succ n ih =>
    have hlen : pre.length ≤ data.len := by simp [Slice.len, hd]
    have hfrom := Slice.from_nat hlen
    unfold fieldLoop
    rw [hfrom]
    simp only [Out.ret_bind]
    have hrem : data.vis.drop pre.length = rem := by rw [hd]; simp
    rw [hrem]
    have nosplit : (SP ∉ rem ∨ ∃ q, rem = SP :: q) →
        ¬ ∃ fs tail, fs.length = n + 1 ∧ (∀ f ∈ fs, RawField f) ∧ rem = headerText fs ++ tail := by
      rintro hc ⟨fs, tail, h1, h2, h3⟩
      cases fs with
      | nil => simp at h1
      | cons f r =>
        have hf := h2 f (by simp)
        rw [headerText_cons, List.append_assoc] at h3
        rcases hc with hc | ⟨q, hc⟩
        · exact hc (by rw [h3]; simp)
        · rw [hc] at h3
          obtain ⟨f1, f2⟩ := hf
          cases f with
          | nil => exact f1 rfl
          | cons a f' =>
            simp only [List.cons_append, List.cons.injEq] at h3
            exact f2 (by rw [← h3.1]; simp)
    rcases searchNextSep_cases ⟨rem, data.spare⟩ SP with ⟨h1, h2⟩ | ⟨h1, q, h2⟩ | ⟨p, q, h1, h2, h3, h4⟩
    · left
      rw [h1]
      exact ⟨_, rfl, nosplit (Or.inl h2)⟩
    · left
      rw [h1]
      exact ⟨_, rfl, nosplit (Or.inr ⟨q, h2⟩)⟩
    · rw [h4]
      simp only at h1
      subst h1
      have hd' : data.vis = (pre ++ p ++ [SP]) ++ q := by rw [hd]; simp
      have hpl : pre.length + p.length + 1 = (pre ++ p ++ [SP]).length := by simp; omega
      have := ih (pre ++ p ++ [SP]) (idx ++ [((pre.length + p.length : Nat) : Int)]) q hd'
      rw [← hpl] at this
      rcases this with ⟨e, h5, h6⟩ | ⟨fs, tail, h5, h6, h7, h8⟩
      · left
        refine ⟨e, h5, ?_⟩
        rintro ⟨fs, tail, g1, g2, g3⟩
        cases fs with
        | nil => simp at g1
        | cons f r =>
          apply h6
          rw [headerText_cons, List.append_assoc] at g3
          have hpf : p = f ∧ q = headerText r ++ tail := by
            have hf := (g2 f (by simp)).2
            have e1 := indexByte_append (c := SP) (q := q) h2
            have e2 := indexByte_append (c := SP) (q := headerText r ++ tail) hf
            simp only [List.cons_append] at g3
            rw [g3, e2] at e1
            simp only [Option.some.injEq] at e1
            obtain ⟨g4, g5⟩ := List.append_inj g3 e1.symm
            exact ⟨g4, by simpa using g5⟩
          exact ⟨r, tail, by simpa using g1, fun x hx => g2 x (by simp [hx]), hpf.2⟩
      · right
        refine ⟨p :: fs, tail, by simp [h5], ?_, ?_, ?_⟩
        · intro f hf
          simp only [List.mem_cons] at hf
          rcases hf with rfl | hf
          · exact ⟨h3, h2⟩
          · exact h6 f hf
        · rw [headerText_cons, h7]; simp
        · refine h8.trans ?_
          rw [headerText_cons]
          simp only [headerIndex, List.length_append, List.length_cons, List.append_assoc, List.singleton_append]
          congr 3
          omega

/-! ## the structured data loop -/

/-- End offsets of elements laid out from `start`. -/
def elemIndex : Nat → List Bytes → List Int
  | _, [] => []
  | start, x :: r => ((start + x.length : Nat) : Int) :: elemIndex (start + x.length) r

theorem elemIndex_length (s : Nat) (xs : List Bytes) : (elemIndex s xs).length = xs.length := by
  induction xs generalizing s with
  | nil => rfl
  | cons f r ih => simp [elemIndex, ih]

/-- `msg.text` for elements `xs` from offset `start` followed by `o`. -/
def textPos (start : Nat) (xs : List Bytes) : Option Bytes → Int
  | none => -1
  | some _ => ((start + xs.flatten.length + 1 : Nat) : Int)

theorem elemIndex_cons (s : Nat) (x : Bytes) (xs : List Bytes) :
    elemIndex s (x :: xs) = ((s + x.length : Nat) : Int) :: elemIndex (s + x.length) xs := rfl

theorem textPos_cons (s : Nat) (x : Bytes) (xs : List Bytes) (o : Option Bytes) :
    textPos s (x :: xs) o = textPos (s + x.length) xs o := by
  cases o with
  | none => rfl
  | some q =>
    simp only [textPos, List.flatten_cons, List.length_append]
    congr 1; omega

theorem nb_dq {p : Bytes} (h : RBRK ∉ p) : RBRK ∉ p ++ [DQ] := by
  simp only [List.mem_append, List.mem_singleton, not_or]; exact ⟨h, by decide⟩
theorem nb_bsl {p : Bytes} (h : RBRK ∉ p) : RBRK ∉ p ++ [BSL] := by
  simp only [List.mem_append, List.mem_singleton, not_or]; exact ⟨h, by decide⟩

theorem Spec.Element.ne_nil {x : Bytes} (h : Element x) : x ≠ [] := by cases h <;> simp
theorem Spec.Quiet.ne_nil {x : Bytes} (h : Quiet x) : x ≠ [] := by
  cases h with
  | last h _ => exact h
  | esc _ _ => simp
theorem Spec.Items.ne_nil {r : Bytes} {xs o} (h : Items r xs o) : r ≠ [] := by
  cases h with
  | stop h => exact h.ne_nil
  | quiet h => exact h.ne_nil
  | more h _ => simp [h.ne_nil]

section
variable (transport : Option Transport) (atEOF : Bool) (rest : Option Slice) (mainErr : Option Err) (data : Slice)

theorem at_before {pre p q : Bytes} {b : UInt8} (hd : data.vis = pre ++ (p ++ [b]) ++ q) :
    data.at_ ((pre.length + (p ++ [b]).length : Nat) - 1 : Int) = .ret b := by
  have : ((pre.length + (p ++ [b]).length : Nat) - 1 : Int) = ((pre.length + p.length : Nat) : Int) := by
    simp; omega
  rw [this]
  apply Slice.at_nat
  rw [hd, List.append_assoc, List.getElem?_append_right (by omega)]
  simp

/-- One iteration of the loop, by cases on the next closing bracket. -/
theorem sdLoop_step (fuel : Nat) (pre rem : Bytes) (hd : data.vis = pre ++ rem) (hne : rem ≠ []) (start : Nat)
    (index : List Int) :
    (RBRK ∉ rem ∧ sdLoop transport atEOF rest mainErr data (fuel + 1) pre.length start index =
      parseReturn ⟨data, index, ((start + 1 : Nat) : Int)⟩ transport atEOF data rest) ∨
    (∃ p q, rem = p ++ [BSL, RBRK] ++ q ∧ RBRK ∉ p ∧
      sdLoop transport atEOF rest mainErr data (fuel + 1) pre.length start index =
        sdLoop transport atEOF rest mainErr data fuel (pre ++ p ++ [BSL, RBRK]).length start index) ∨
    (∃ p q, rem = p ++ [DQ, RBRK] ++ q ∧ RBRK ∉ p ∧
      sdLoop transport atEOF rest mainErr data (fuel + 1) pre.length start index =
        (if q = [] then
          parseReturn ⟨data, index ++ [((pre ++ p ++ [DQ, RBRK]).length : Int)], -1⟩ transport atEOF data rest
        else sdLoop transport atEOF rest mainErr data fuel (pre ++ p ++ [DQ, RBRK]).length
          (pre ++ p ++ [DQ, RBRK]).length (index ++ [((pre ++ p ++ [DQ, RBRK]).length : Int)]))) ∨
    (∃ e, sdLoop transport atEOF rest mainErr data (fuel + 1) pre.length start index =
        .ret (MsgImm.zero, rest, dispatchError mainErr e) ∧
      (∃ p q, rem = p ++ RBRK :: q ∧ RBRK ∉ p ∧ (∀ p', p ≠ p' ++ [BSL]) ∧ (∀ p', p ≠ p' ++ [DQ]))) := by
  have hlen : pre.length ≤ data.len := by simp [Slice.len, hd]
  have hfrom := Slice.from_nat hlen
  have hrem : data.vis.drop pre.length = rem := by rw [hd]; simp
  rw [hrem] at hfrom
  have h0 : ¬ (Slice.mk rem data.spare).len = 0 := by simpa using hne
  have key := sdLoop.eq_def transport atEOF rest mainErr data (fuel + 1) pre.length start index
  dsimp only at key
  rw [hfrom] at key
  simp only [Out.ret_bind, h0, if_false] at key
  rcases searchNextSep_cases ⟨rem, data.spare⟩ RBRK with ⟨h1, h2⟩ | ⟨h1, q, h2⟩ | ⟨p, q, h1, h2, h3, h4⟩
  · left
    rw [h1] at key
    exact ⟨h2, key⟩
  · right; right; right
    rw [h1] at key
    refine ⟨_, key, [], q, h2, by simp, ?_, ?_⟩ <;> (intro p'; simp)
  · right
    rw [h4] at key
    simp only at h1
    subst h1
    obtain ⟨p', b, rfl⟩ : ∃ p' b, p = p' ++ [b] := by
      rcases List.eq_nil_or_concat p with h | ⟨p', b, h⟩
      · exact absurd h h3
      · exact ⟨p', b, by rw [h, List.concat_eq_append]⟩
    have hat := at_before data (pre := pre) (p := p') (b := b) (q := RBRK :: q) (by rw [hd]; simp)
    simp only [hat, Out.ret_bind] at key
    have hp' : RBRK ∉ p' := fun h => h2 (by simp [h])
    by_cases hb : b = BSL
    · left
      subst hb
      refine ⟨p', q, by simp, hp', ?_⟩
      rw [if_pos rfl] at key
      rw [key]
      congr 1
      simp; omega
    · rw [if_neg hb] at key
      by_cases hq : b = DQ
      · right; left
        subst hq
        refine ⟨p', q, by simp, hp', ?_⟩
        rw [if_pos rfl] at key
        have e : pre.length + (p' ++ [DQ]).length + 1 = (pre ++ p' ++ [DQ, RBRK]).length := by simp; omega
        rw [e] at key
        rw [key]
        have hdl : data.len = (pre ++ p' ++ [DQ, RBRK]).length + q.length := by
          simp only [Slice.len, hd, List.length_append, List.length_cons, List.length_nil]; omega
        by_cases hqn : q = []
        · rw [if_pos (by show data.len ≤ _; rw [hdl, hqn]; simp), if_pos hqn]
        · have : q.length ≠ 0 := by simpa using hqn
          rw [if_neg (by show ¬ (data.len ≤ _); omega), if_neg hqn]
      · right; right
        rw [if_neg hq] at key
        refine ⟨_, key, p' ++ [b], q, by simp, h2, ?_, ?_⟩
        · intro p'' h
          have := List.append_inj_right' h rfl
          simp at this; exact hb this
        · intro p'' h
          have := List.append_inj_right' h rfl
          simp at this; exact hq this

theorem sdLoop_end (fuel : Nat) (start : Nat) (index : List Int) :
    sdLoop transport atEOF rest mainErr data (fuel + 1) data.vis.length start index =
      .ret (MsgImm.zero, rest, dispatchError mainErr .impossible) := by
  have hfrom := Slice.from_nat (s := data) (i := data.vis.length) (Nat.le_refl _)
  unfold sdLoop
  rw [hfrom]
  simp

/-- First closing bracket: the two decompositions of a string are the same. -/
theorem firstBrk {p q p' q' : Bytes} (h : p ++ RBRK :: q = p' ++ RBRK :: q') (h1 : RBRK ∉ p) (h2 : RBRK ∉ p') :
    p = p' ∧ q = q' := by
  have e1 := indexByte_append (c := RBRK) (q := q) h1
  have e2 := indexByte_append (c := RBRK) (q := q') h2
  rw [h, e2] at e1
  simp only [Option.some.injEq] at e1
  obtain ⟨g4, g5⟩ := List.append_inj h e1.symm
  exact ⟨g4, by simpa using g5⟩

/-- Soundness of the loop: it either fails, or the bytes are a sequence of elements. `st` are the bytes
before the current element, `cur` the part of the current element already skipped. -/
theorem sdLoop_sound (fuel : Nat) (st cur rem : Bytes) (hd : data.vis = st ++ cur ++ rem)
    (hf : rem.length < fuel) (index : List Int)
    (hcur : ∀ y, Element y → Element (cur ++ y)) (hcurq : ∀ y, Quiet y → Quiet (cur ++ y)) :
    (∃ e, sdLoop transport atEOF rest mainErr data fuel (st ++ cur).length st.length index =
        .ret (MsgImm.zero, rest, dispatchError mainErr e)) ∨
    (∃ xs o, Items (cur ++ rem) xs o ∧
      sdLoop transport atEOF rest mainErr data fuel (st ++ cur).length st.length index =
        parseReturn ⟨data, index ++ elemIndex st.length xs, textPos st.length xs o⟩ transport atEOF data rest) := by
  induction fuel generalizing st cur rem index with
  | zero => omega
  | succ fuel ih =>
    by_cases hne : rem = []
    · left
      subst hne
      have : (st ++ cur).length = data.vis.length := by rw [hd]; simp
      rw [this, sdLoop_end]
      exact ⟨_, rfl⟩
    rcases sdLoop_step transport atEOF rest mainErr data fuel (st ++ cur) rem hd hne st.length index with
      ⟨h1, h2⟩ | ⟨p, q, h1, h2, h3⟩ | ⟨p, q, h1, h2, h3⟩ | ⟨e, h1, _⟩
    · right
      exact ⟨[], some (cur ++ rem), .quiet (hcurq _ (.last hne h1)), by rw [h2]; simp [elemIndex, textPos]⟩
    · rw [h3]
      have := ih st (cur ++ p ++ [BSL, RBRK]) q (by rw [hd, h1]; simp) (by rw [h1] at hf; simp at hf; omega) index
        (by intro y hy; have := hcur _ (.esc h2 hy); simpa using this)
        (by intro y hy; have := hcurq _ (.esc h2 hy); simpa using this)
      rw [h1]
      simpa using this
    · rw [h3]
      have hx : Element (cur ++ p ++ [DQ, RBRK]) := by have := hcur _ (.last h2); simpa using this
      by_cases hq : q = []
      · right
        subst hq
        refine ⟨[cur ++ p ++ [DQ, RBRK]], none, ?_, ?_⟩
        · rw [h1]; have := Items.stop hx; simpa using this
        · rw [if_pos rfl]
          simp [elemIndex, textPos]
      · rw [if_neg hq]
        have := ih (st ++ cur ++ p ++ [DQ, RBRK]) [] q (by rw [hd, h1]; simp)
          (by rw [h1] at hf; simp at hf; omega) (index ++ [((st ++ cur ++ p ++ [DQ, RBRK]).length : Int)])
          (fun y hy => hy) (fun y hy => hy)
        rw [List.append_nil] at this
        rcases this with ⟨e, h4⟩ | ⟨xs, o, h4, h5⟩
        · exact Or.inl ⟨e, h4⟩
        · right
          refine ⟨(cur ++ p ++ [DQ, RBRK]) :: xs, o, ?_, ?_⟩
          · rw [h1]; have := Items.more hx h4; simpa using this
          · rw [h5]
            have e1 : (st ++ cur ++ p ++ [DQ, RBRK]).length = st.length + (cur ++ p ++ [DQ, RBRK]).length := by
              simp
            rw [e1, elemIndex_cons, textPos_cons]
            simp
    · exact Or.inl ⟨e, h1⟩

/-- The loop on an element. -/
theorem sdLoop_element {x : Bytes} (hx : Element x) (pre q : Bytes) (hd : data.vis = pre ++ x ++ q)
    (fuel : Nat) (hf : x.length + q.length < fuel) (start : Nat) (index : List Int) :
    ∃ fuel', q.length < fuel' ∧
      sdLoop transport atEOF rest mainErr data fuel pre.length start index =
        (if q = [] then
          parseReturn ⟨data, index ++ [((pre ++ x).length : Int)], -1⟩ transport atEOF data rest
        else sdLoop transport atEOF rest mainErr data fuel' (pre ++ x).length
          (pre ++ x).length (index ++ [((pre ++ x).length : Int)])) := by
  induction hx generalizing pre fuel with
  | @last p hp =>
    cases fuel with
    | zero => omega
    | succ fuel =>
      refine ⟨fuel, by simp at hf; omega, ?_⟩
      rcases sdLoop_step transport atEOF rest mainErr data fuel pre (p ++ [DQ, RBRK] ++ q) (by rw [hd]; simp)
        (by simp) start index with ⟨h1, h2⟩ | ⟨p', q', h1, h2, h3⟩ | ⟨p', q', h1, h2, h3⟩ | ⟨e, h1, p', q', h2, h3, h4, h5⟩
      · exact absurd h1 (by simp)
      · exfalso
        have := (firstBrk (p := p ++ [DQ]) (q := q) (p' := p' ++ [BSL]) (q' := q') (by simpa using h1)
          (nb_dq hp) (nb_bsl h2)).1
        have := List.append_inj_right' this rfl
        simp at this; exact absurd this (by decide)
      · have := (firstBrk (p := p ++ [DQ]) (q := q) (p' := p' ++ [DQ]) (q' := q') (by simpa using h1)
          (nb_dq hp) (nb_dq h2))
        have e1 := List.append_inj_left' this.1 rfl
        have e2 := this.2
        subst e1; subst e2
        simpa using h3
      · exfalso
        have := (firstBrk (p := p ++ [DQ]) (q := q) (p' := p') (q' := q') (by simpa using h2) (nb_dq hp) h3).1
        exact h5 p this.symm
  | @esc p r hp _ ih =>
    cases fuel with
    | zero => omega
    | succ fuel =>
      have hstep : sdLoop transport atEOF rest mainErr data (fuel + 1) pre.length start index =
          sdLoop transport atEOF rest mainErr data fuel (pre ++ p ++ [BSL, RBRK]).length start index := by
        rcases sdLoop_step transport atEOF rest mainErr data fuel pre (p ++ [BSL, RBRK] ++ r ++ q) (by rw [hd]; simp)
          (by simp) start index with ⟨h1, h2⟩ | ⟨p', q', h1, h2, h3⟩ | ⟨p', q', h1, h2, h3⟩ | ⟨e, h1, p', q', h2, h3, h4, h5⟩
        · exact absurd h1 (by simp)
        · have := (firstBrk (p := p ++ [BSL]) (q := r ++ q) (p' := p' ++ [BSL]) (q' := q') (by simpa using h1)
            (nb_bsl hp) (nb_bsl h2)).1
          have e1 := List.append_inj_left' this rfl
          subst e1
          exact h3
        · exfalso
          have := (firstBrk (p := p ++ [BSL]) (q := r ++ q) (p' := p' ++ [DQ]) (q' := q') (by simpa using h1)
            (nb_bsl hp) (nb_dq h2)).1
          have := List.append_inj_right' this rfl
          simp at this; exact absurd this (by decide)
        · exfalso
          have := (firstBrk (p := p ++ [BSL]) (q := r ++ q) (p' := p') (q' := q') (by simpa using h2) (nb_bsl hp) h3).1
          exact h4 p this.symm
      obtain ⟨f', h1, h2⟩ := ih (pre ++ p ++ [BSL, RBRK]) (by rw [hd]; simp) fuel (by simp at hf; omega)
      refine ⟨f', h1, ?_⟩
      rw [hstep, h2]
      simp

/-- The loop on something quiet. -/
theorem sdLoop_quiet {x : Bytes} (hx : Quiet x) (pre : Bytes) (hd : data.vis = pre ++ x)
    (fuel : Nat) (hf : x.length < fuel) (start : Nat) (index : List Int) :
      sdLoop transport atEOF rest mainErr data fuel pre.length start index =
        parseReturn ⟨data, index, ((start + 1 : Nat) : Int)⟩ transport atEOF data rest := by
  induction hx generalizing pre fuel with
  | @last p hn hp =>
    cases fuel with
    | zero => omega
    | succ fuel =>
      rcases sdLoop_step transport atEOF rest mainErr data fuel pre p hd hn start index with
        ⟨h1, h2⟩ | ⟨p', q', h1, h2, h3⟩ | ⟨p', q', h1, h2, h3⟩ | ⟨e, h1, p', q', h2, h3, h4, h5⟩
      · exact h2
      · exact absurd (by rw [h1]; simp) hp
      · exact absurd (by rw [h1]; simp) hp
      · exact absurd (by rw [h2]; simp) hp
  | @esc p r hp _ ih =>
    cases fuel with
    | zero => omega
    | succ fuel =>
      rcases sdLoop_step transport atEOF rest mainErr data fuel pre (p ++ [BSL, RBRK] ++ r) hd
          (by simp) start index with ⟨h1, h2⟩ | ⟨p', q', h1, h2, h3⟩ | ⟨p', q', h1, h2, h3⟩ | ⟨e, h1, p', q', h2, h3, h4, h5⟩
      · exact absurd h1 (by simp)
      · have := (firstBrk (p := p ++ [BSL]) (q := r) (p' := p' ++ [BSL]) (q' := q') (by simpa using h1)
            (nb_bsl hp) (nb_bsl h2)).1
        have e1 := List.append_inj_left' this rfl
        subst e1
        rw [h3]
        exact ih _ (by rw [hd]; simp) fuel (by simp at hf; omega)
      · exfalso
        have := (firstBrk (p := p ++ [BSL]) (q := r) (p' := p' ++ [DQ]) (q' := q') (by simpa using h1)
            (nb_bsl hp) (nb_dq h2)).1
        have := List.append_inj_right' this rfl
        simp at this; exact absurd this (by decide)
      · exfalso
        have := (firstBrk (p := p ++ [BSL]) (q := r) (p' := p') (q' := q') (by simpa using h2) (nb_bsl hp) h3).1
        exact h4 p this.symm

/-- Completeness of the loop on a sequence of elements. -/
theorem sdLoop_items {x : Bytes} {xs : List Bytes} {o : Option Bytes} (hx : Items x xs o) (pre : Bytes)
    (hd : data.vis = pre ++ x) (fuel : Nat) (hf : x.length < fuel) (index : List Int) :
      sdLoop transport atEOF rest mainErr data fuel pre.length pre.length index =
        parseReturn ⟨data, index ++ elemIndex pre.length xs, textPos pre.length xs o⟩ transport atEOF data rest := by
  induction hx generalizing pre fuel index with
  | stop h =>
    obtain ⟨f', _, h2⟩ := sdLoop_element transport atEOF rest mainErr data h pre [] (by rw [hd]; simp) fuel
      (by simpa using hf) pre.length index
    rw [h2, if_pos rfl]
    simp [elemIndex, textPos]
  | quiet h =>
    rw [sdLoop_quiet transport atEOF rest mainErr data h pre hd fuel hf]
    simp [elemIndex, textPos]
  | @more x r xs o h hr ih =>
    obtain ⟨f', h1, h2⟩ := sdLoop_element transport atEOF rest mainErr data h pre r (by rw [hd]; simp) fuel
      (by simpa using hf) pre.length index
    rw [h2, if_neg hr.ne_nil, ih (pre ++ x) (by rw [hd]; simp) f' h1, elemIndex_cons, textPos_cons]
    simp

end

/-! ## the body of Parse -/

/-- A frame together with the offsets the parser computes. -/
inductive Layout : Bytes → List Bytes → List Bytes → Option Bytes → List Int → Int → Prop
  | dash {fs : List Bytes} : fs.length = 6 → (∀ f ∈ fs, RawField f) →
      Layout (headerText fs ++ [DASH]) fs [] none
        (headerIndex 0 fs ++ [(((headerText fs).length + 2 : Nat) : Int)]) (-1)
  | dashText {fs : List Bytes} {t : Bytes} : fs.length = 6 → (∀ f ∈ fs, RawField f) →
      Layout (headerText fs ++ [DASH, SP] ++ t) fs [] (some (SP :: t))
        (headerIndex 0 fs ++ [(((headerText fs).length + 1 : Nat) : Int)]) (((headerText fs).length + 2 : Nat) : Int)
  | sd {fs xs : List Bytes} {o : Option Bytes} {tail : Bytes} : fs.length = 6 → (∀ f ∈ fs, RawField f) →
      Items tail xs o → (∃ p q, tail = p ++ SP :: q ∧ SP ∉ p ∧ 2 ≤ p.length) →
      Layout (headerText fs ++ tail) fs xs o
        (headerIndex 0 fs ++ elemIndex (headerText fs).length xs) (textPos (headerText fs).length xs o)

theorem Layout.frame {b : Bytes} {fs xs o idx txt} (h : Layout b fs xs o idx txt) : Frame b fs xs o := by
  cases h with
  | dash h1 h2 => exact .dash h1 h2
  | dashText h1 h2 => exact .dashText h1 h2
  | sd h1 h2 h3 h4 =>
    obtain ⟨p, q, h5, h6, h7⟩ := h4
    exact .sd h1 h2 h3 ⟨p, q, by rw [h5]; simp, h6, h7⟩

theorem Spec.Frame.layout {b : Bytes} {fs xs o} (h : Frame b fs xs o) : ∃ idx txt, Layout b fs xs o idx txt := by
  cases h with
  | dash h1 h2 => exact ⟨_, _, .dash h1 h2⟩
  | dashText h1 h2 => exact ⟨_, _, .dashText h1 h2⟩
  | sd h1 h2 h3 h4 =>
    obtain ⟨p, q, h5, h6, h7⟩ := h4
    exact ⟨_, _, .sd h1 h2 h3 ⟨p, q, by rw [h5]; simp, h6, h7⟩⟩

theorem headerText_inj {fs gs : List Bytes} {s t : Bytes} (hl : fs.length = gs.length)
    (hf : ∀ f ∈ fs, RawField f) (hg : ∀ f ∈ gs, RawField f) (h : headerText fs ++ s = headerText gs ++ t) :
    fs = gs ∧ s = t := by
  induction fs generalizing gs with
  | nil =>
    cases gs with
    | nil => exact ⟨rfl, by simpa [headerText] using h⟩
    | cons _ _ => simp at hl
  | cons f r ih =>
    cases gs with
    | nil => simp at hl
    | cons g gs =>
      simp only [headerText_cons, List.append_assoc, List.cons_append] at h
      have e1 := indexByte_append (c := SP) (q := headerText r ++ s) (hf f (by simp)).2
      have e2 := indexByte_append (c := SP) (q := headerText gs ++ t) (hg g (by simp)).2
      rw [h, e2] at e1
      simp only [Option.some.injEq] at e1
      obtain ⟨g4, g5⟩ := List.append_inj h e1.symm
      simp only [List.cons.injEq, true_and] at g5
      obtain ⟨h1, h2⟩ := ih (by simpa using hl) (fun x hx => hf x (by simp [hx])) (fun x hx => hg x (by simp [hx])) g5
      exact ⟨by rw [g4, h1], h2⟩

section
variable (transport : Option Transport) (atEOF : Bool) (rest : Option Slice) (mainErr : Option Err) (data : Slice)

/-- `parseBody` after the header loop succeeded. -/
theorem parseBody_header {fs : List Bytes} {tail : Bytes} (h6 : fs.length = 6) (hf : ∀ f ∈ fs, RawField f)
    (hd : data.vis = headerText fs ++ tail) :
    parseBody data rest mainErr transport atEOF =
      (if tail.length = 0 then
        .ret (MsgImm.zero, rest, dispatchError mainErr (.parseError (headerText fs).length "empty field expected"))
      else if tail.length = 1 then
        (if tail ≠ [DASH] then
          .ret (MsgImm.zero, rest, dispatchError mainErr (.parseError (headerText fs).length "empty field expected"))
        else parseReturn ⟨data, headerIndex 0 fs ++ [(((headerText fs).length + 2 : Nat) : Int)], -1⟩
          transport atEOF data rest)
      else
        match searchNextSep ⟨tail, data.spare⟩ SP with
        | .error e => .ret (MsgImm.zero, rest, dispatchError mainErr e)
        | .ok stop =>
          if stop = 1 then
            (if tail.head? ≠ some DASH then
              .ret (MsgImm.zero, rest, dispatchError mainErr (.parseError (headerText fs).length "empty structured data expected"))
            else parseReturn ⟨data, headerIndex 0 fs ++ [(((headerText fs).length + 1 : Nat) : Int)],
              (((headerText fs).length + 2 : Nat) : Int)⟩ transport atEOF data rest)
          else sdLoop transport atEOF rest mainErr data (data.len + 1) (headerText fs).length (headerText fs).length
            (headerIndex 0 fs)) := by
  have hpos : data.len > 0 := by
    cases fs with
    | nil => simp at h6
    | cons f r => simp [Slice.len, hd, headerText_cons]; omega
  have hloop : fieldLoop data 6 0 [] = .ret (.ok ((headerText fs).length, headerIndex 0 fs)) := by
    rcases fieldLoop_cases data 6 [] [] data.vis (by simp) with ⟨e, _, h2⟩ | ⟨gs, t, h1, h2, h3, h4⟩
    · exact absurd ⟨fs, tail, h6, hf, hd⟩ h2
    · rw [hd] at h3
      obtain ⟨e1, e2⟩ := headerText_inj (by rw [h6, h1]) hf h2 h3
      subst e1
      simpa using h4
  have hlen : (headerText fs).length ≤ data.len := by simp [Slice.len, hd]
  have hfrom := Slice.from_nat hlen
  have hrem : data.vis.drop (headerText fs).length = tail := by rw [hd]; simp
  rw [hrem] at hfrom
  have hat : ∀ c r, tail = c :: r → data.at_ ((headerText fs).length : Int) = .ret c := by
    intro c r hc
    apply Slice.at_nat
    rw [hd, hc, List.getElem?_append_right (Nat.le_refl _)]
    simp
  unfold parseBody
  rw [if_pos hpos, hloop]
  simp only [Out.ret_bind]
  rw [hfrom]
  simp only [Out.ret_bind, Slice.len_mk]
  by_cases h0 : tail.length = 0
  · simp only [h0, if_true]; rfl
  · simp only [h0, if_false]
    by_cases h1 : tail.length = 1
    · simp only [h1, if_true]
      obtain ⟨c, rfl⟩ : ∃ c, tail = [c] := by
        match tail, h1 with
        | [c], _ => exact ⟨c, rfl⟩
      rw [hat c [] rfl]
      simp only [Out.ret_bind]
      by_cases hc : c = DASH
      · subst hc; simp
      · rw [if_pos hc, if_pos (by simpa using hc)]; rfl
    · simp only [h1, if_false]
      cases hs : searchNextSep ⟨tail, data.spare⟩ SP with
      | error e => rfl
      | ok stop =>
        simp only
        by_cases h2 : stop = 1
        · simp only [h2, if_true]
          cases tail with
          | nil => simp at h0
          | cons c r =>
            rw [hat c r rfl]
            simp only [Out.ret_bind]
            by_cases hc : c = DASH
            · subst hc; simp
            · rw [if_pos hc, if_pos (by simpa using hc)]; rfl
        · simp only [h2, if_false]

theorem parseBody_sound :
    (∃ e, parseBody data rest mainErr transport atEOF = .ret (MsgImm.zero, rest, dispatchError mainErr e)) ∨
    (∃ fs xs o idx txt, Layout data.vis fs xs o idx txt ∧
      parseBody data rest mainErr transport atEOF = parseReturn ⟨data, idx, txt⟩ transport atEOF data rest) := by
  by_cases hpos : data.len > 0
  · rcases fieldLoop_cases data 6 [] [] data.vis (by simp) with ⟨e, h1, _⟩ | ⟨fs, tail, h6, hf, hd, _⟩
    · left
      unfold parseBody
      rw [if_pos hpos]
      simp only [List.length_nil] at h1
      rw [h1]
      exact ⟨e, rfl⟩
    · rw [parseBody_header transport atEOF rest mainErr data h6 hf hd]
      by_cases h0 : tail.length = 0
      · rw [if_pos h0]; exact Or.inl ⟨_, rfl⟩
      rw [if_neg h0]
      by_cases h1 : tail.length = 1
      · rw [if_pos h1]
        by_cases h2 : tail = [DASH]
        · right
          rw [if_neg (by simpa using h2)]
          exact ⟨fs, [], none, _, _, by rw [hd, h2]; exact .dash h6 hf, rfl⟩
        · rw [if_pos h2]; exact Or.inl ⟨_, rfl⟩
      rw [if_neg h1]
      rcases searchNextSep_cases ⟨tail, data.spare⟩ SP with ⟨h2, _⟩ | ⟨h2, _⟩ | ⟨p, q, h2, h3, h4, h5⟩
      · rw [h2]; exact Or.inl ⟨_, rfl⟩
      · rw [h2]; exact Or.inl ⟨_, rfl⟩
      · rw [h5]
        simp only at h2
        simp only
        by_cases h7 : p.length = 1
        · rw [if_pos h7]
          by_cases h8 : tail.head? = some DASH
          · right
            rw [if_neg (by simpa using h8)]
            have hp : p = [DASH] := by
              match p, h7 with
              | [c], _ =>
                rw [h2] at h8
                simpa using h8
            refine ⟨fs, [], some (SP :: q), _, _, ?_, rfl⟩
            rw [hd, h2, hp]
            have := Layout.dashText (t := q) h6 hf
            simpa using this
          · rw [if_pos h8]; exact Or.inl ⟨_, rfl⟩
        · rw [if_neg h7]
          have h9 : 2 ≤ p.length := by
            have : p.length ≠ 0 := by simpa using h4
            omega
          have := sdLoop_sound transport atEOF rest mainErr data (data.len + 1) (headerText fs) [] tail
            (by rw [hd]; simp) (by simp [Slice.len, hd]; omega) (headerIndex 0 fs) (fun y hy => hy) (fun y hy => hy)
          rw [List.append_nil] at this
          rcases this with ⟨e, h10⟩ | ⟨xs, o, h10, h11⟩
          · exact Or.inl ⟨e, h10⟩
          · right
            refine ⟨fs, xs, o, _, _, ?_, h11⟩
            rw [hd]
            exact .sd h6 hf h10 ⟨p, q, h2, h3, h9⟩
  · left
    have : data.vis = [] := by simpa [Slice.len] using hpos
    unfold parseBody
    rw [if_neg hpos]
    simp only [fieldLoop, Out.ret_bind]
    rw [Slice.from_nat (by simp)]
    simp only [Out.ret_bind, Slice.len_mk, this]
    exact ⟨_, rfl⟩

theorem parseBody_complete {fs xs : List Bytes} {o : Option Bytes} {idx : List Int} {txt : Int}
    (h : Layout data.vis fs xs o idx txt) :
    parseBody data rest mainErr transport atEOF = parseReturn ⟨data, idx, txt⟩ transport atEOF data rest := by
  generalize hb : data.vis = b at h
  cases h with
  | dash h6 hf =>
    rw [parseBody_header transport atEOF rest mainErr data h6 hf hb]
    simp
  | @dashText _ t h6 hf =>
    rw [parseBody_header transport atEOF rest mainErr data h6 hf (tail := [DASH, SP] ++ t) (by rw [hb]; simp)]
    rw [if_neg (by simp), if_neg (by simp)]
    rw [searchNextSep_ok.mpr ⟨[DASH], t, rfl, rfl, by decide, by decide⟩]
    simp
  | @sd _ _ _ tail h6 hf hi hsp =>
    obtain ⟨p, q, h1, h2, h3⟩ := hsp
    rw [parseBody_header transport atEOF rest mainErr data h6 hf hb]
    have hl : tail.length = p.length + q.length + 1 := by rw [h1]; simp; omega
    rw [if_neg (by omega), if_neg (by omega)]
    rw [searchNextSep_ok.mpr ⟨p, q, h1, rfl, h2, by omega⟩]
    simp only
    rw [if_neg (by omega)]
    exact sdLoop_items transport atEOF rest mainErr data hi (headerText fs) hb (data.len + 1)
      (by simp only [Slice.len, hb, List.length_append]; omega) (headerIndex 0 fs)

end

end Syslog5424
