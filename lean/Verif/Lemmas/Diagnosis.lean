import Verif.Spec.Diagnosis
import Verif.Lemmas.Parse
/-! # Lemmas: which error the parser reports -/
namespace Syslog5424
open Spec

/-! ## closed bytes -/

theorem closed_nil : Closed [] := by
  intro u v h
  simp at h

theorem closed_of_notMem {p : Bytes} (h : RBRK ∉ p) : Closed p := by
  intro u v e
  exact absurd (by rw [e]; simp) h

/-- Appending bytes whose only `]` is the last one, if there is one, and is justified. -/
theorem closed_append {a p : Bytes} (ha : Closed a) (hp : RBRK ∉ p) : Closed (a ++ p) := by
  intro u v e
  rw [List.append_assoc] at e
  rcases List.append_eq_append_iff.mp e with ⟨a', h1, h2⟩ | ⟨c', h1, h2⟩
  · exact absurd (by rw [h2]; simp) hp
  · cases c' with
    | nil => exact absurd (by simp only [List.nil_append] at h2; rw [← h2]; simp) hp
    | cons x c' =>
      simp only [List.cons_append, List.nil_append, List.cons.injEq] at h2
      obtain ⟨rfl, h2⟩ := h2
      exact ha u c' (by rw [h1]; simp)

theorem closed_esc {a p : Bytes} (ha : Closed a) (hp : RBRK ∉ p) (c : UInt8) (hc : c = BSL ∨ c = DQ) :
    Closed (a ++ p ++ [c, RBRK]) := by
  have h1 : Closed (a ++ p ++ [c]) := by
    rw [List.append_assoc]
    apply closed_append ha
    rcases hc with rfl | rfl
    · exact nb_bsl hp
    · exact nb_dq hp
  intro u v e
  rcases List.eq_nil_or_concat v with h | ⟨v', x, h⟩
  · subst h
    have e' : (a ++ p ++ [c]) ++ [RBRK] = u ++ [RBRK] := by simpa using e
    have := List.append_inj_left' e' rfl
    refine ⟨a ++ p, ?_⟩
    rw [← this]
    rcases hc with rfl | rfl
    · exact Or.inl rfl
    · exact Or.inr rfl
  · rw [List.concat_eq_append] at h
    subst h
    have e' : (a ++ p ++ [c]) ++ [RBRK] = (u ++ [RBRK] ++ v') ++ [x] := by simpa using e
    exact h1 u v' (List.append_inj_left' e' rfl)

theorem Closed.left {a b : Bytes} (h : Closed (a ++ b)) : Closed a := by
  intro u v e
  exact h u (v ++ b) (by rw [e]; simp)

theorem stray_unique {t a b a' b' : Bytes} (h : Stray t a b) (h' : Stray t a' b') : a = a' ∧ b = b' := by
  have e := h.bytes.symm.trans h'.bytes
  rw [List.append_assoc, List.append_assoc] at e
  rcases List.append_eq_append_iff.mp e with ⟨m, h1, h2⟩ | ⟨m, h1, h2⟩
  · cases m with
    | nil => exact ⟨by simpa using h1.symm, by simpa using h2⟩
    | cons x m =>
      simp only [List.cons_append, List.nil_append, List.cons.injEq] at h2
      obtain ⟨rfl, _⟩ := h2
      exact absurd (h'.before a m (by rw [h1]; simp)) h.bad
  · cases m with
    | nil => exact ⟨by simpa using h1, by simpa using h2.symm⟩
    | cons x m =>
      simp only [List.cons_append, List.nil_append, List.cons.injEq] at h2
      obtain ⟨rfl, _⟩ := h2
      exact absurd (h.before a' m (by rw [h1]; simp)) h'.bad

theorem stray_not_closed {t a b : Bytes} (h : Stray t a b) : ¬ Closed t :=
  fun hc => h.bad (hc a b h.bytes)

/-! ## the header loop -/

/-- The header loop runs over fields that are there. -/
theorem fieldLoop_run (data : Slice) (fs : List Bytes) (n : Nat) (pre : Bytes) (idx : List Int) (r : Bytes)
    (hfs : ∀ f ∈ fs, RawField f) (hd : data.vis = pre ++ headerText fs ++ r) :
    ∃ idx', fieldLoop data (fs.length + n) pre.length idx = fieldLoop data n (pre ++ headerText fs).length idx' := by
  induction fs generalizing pre idx with
  | nil => exact ⟨idx, by simp [headerText]⟩
  | cons f fs ih =>
    have hd' : data.vis = (pre ++ f ++ [SP]) ++ headerText fs ++ r := by rw [hd, headerText_cons]; simp
    have hlen : pre.length ≤ data.len := by simp only [Slice.len, hd, List.length_append]; omega
    have hrem : data.vis.drop pre.length = f ++ SP :: (headerText fs ++ r) := by rw [hd, headerText_cons]; simp
    obtain ⟨h1, h2⟩ := hfs f (by simp)
    have hs : searchNextSep ⟨f ++ SP :: (headerText fs ++ r), data.spare⟩ SP = .ok f.length :=
      searchNextSep_ok.mpr ⟨f, _, rfl, rfl, h2, by
        have : f.length ≠ 0 := by simpa using h1
        omega⟩
    obtain ⟨idx', h⟩ := ih (pre ++ f ++ [SP]) (idx ++ [((pre.length + f.length : Nat) : Int)])
      (fun x hx => hfs x (by simp [hx])) hd'
    refine ⟨idx', ?_⟩
    have e1 : (f :: fs).length + n = (fs.length + n) + 1 := by simp; omega
    have e2 : pre ++ headerText (f :: fs) = pre ++ f ++ [SP] ++ headerText fs := by rw [headerText_cons]; simp
    rw [e1, e2, ← h, fieldLoop, Slice.from_nat hlen, hrem]
    simp only [Out.ret_bind, hs]
    congr 1
    simp; omega

theorem fieldLoop_stop (data : Slice) (n : Nat) (pre r : Bytes) (idx : List Int) (hd : data.vis = pre ++ r) :
    (SP ∉ r → fieldLoop data (n + 1) pre.length idx = .ret (.error .posNotFound)) ∧
    (∀ q, r = SP :: q → fieldLoop data (n + 1) pre.length idx = .ret (.error .pos0)) := by
  have hlen : pre.length ≤ data.len := by simp [Slice.len, hd]
  have hrem : data.vis.drop pre.length = r := by rw [hd]; simp
  constructor
  · intro h
    rw [fieldLoop, Slice.from_nat hlen, hrem]
    simp only [Out.ret_bind, searchNextSep]
    rw [indexByte_none.mpr h]
    rfl
  · intro q h
    subst h
    rw [fieldLoop, Slice.from_nat hlen, hrem]
    simp only [Out.ret_bind, searchNextSep]
    rw [show SP :: q = [] ++ SP :: q from rfl, indexByte_append (by simp)]
    rfl

/-- Every byte string begins with up to `n` header fields. -/
theorem header_split (n : Nat) (b : Bytes) : ∃ fs r, fs.length ≤ n ∧ (∀ f ∈ fs, RawField f) ∧
    b = headerText fs ++ r ∧ (fs.length < n → SP ∉ r ∨ ∃ q, r = SP :: q) := by
  induction n generalizing b with
  | zero => exact ⟨[], b, Nat.le_refl _, by simp, by simp [headerText], by simp⟩
  | succ n ih =>
    cases h : indexByte SP b with
    | none => exact ⟨[], b, by simp, by simp, by simp [headerText], fun _ => Or.inl (indexByte_none.mp h)⟩
    | some i =>
      obtain ⟨p, q, e1, _, e3⟩ := indexByte_some h
      by_cases hp : p = []
      · subst hp
        exact ⟨[], b, by simp, by simp, by simp [headerText], fun _ => Or.inr ⟨q, e1⟩⟩
      · obtain ⟨fs, r, h1, h2, h3, h4⟩ := ih q
        refine ⟨p :: fs, r, by simpa using h1, ?_, ?_, fun h => h4 (by simpa using h)⟩
        · intro f hf
          simp only [List.mem_cons] at hf
          rcases hf with rfl | hf
          · exact ⟨hp, e3⟩
          · exact h2 f hf
        · rw [headerText_cons, e1, h3]; simp

section
variable (transport : Option Transport) (atEOF : Bool) (rest : Option Slice) (mainErr : Option Err) (data : Slice)

/-! ## the structured data loop -/

/-- The iteration that meets a stray bracket, with the exact error. -/
theorem sdLoop_stray (fuel : Nat) (pre p q : Bytes) (hd : data.vis = pre ++ (p ++ RBRK :: q)) (hp : RBRK ∉ p)
    (h1 : ∀ p', p ≠ p' ++ [BSL]) (h2 : ∀ p', p ≠ p' ++ [DQ]) (start : Nat) (index : List Int) :
    (p = [] → sdLoop transport atEOF rest mainErr data (fuel + 1) pre.length start index =
      .ret (MsgImm.zero, rest, dispatchError mainErr .pos0)) ∧
    (∀ p' c, p = p' ++ [c] → sdLoop transport atEOF rest mainErr data (fuel + 1) pre.length start index =
      .ret (MsgImm.zero, rest,
        dispatchError mainErr (.parseError (pre.length + p'.length) "\\\\ or \" expected"))) := by
  have hlen : pre.length ≤ data.len := by simp [Slice.len, hd]
  have hfrom := Slice.from_nat hlen
  have hrem : data.vis.drop pre.length = p ++ RBRK :: q := by rw [hd]; simp
  rw [hrem] at hfrom
  have h0 : ¬ (Slice.mk (p ++ RBRK :: q) data.spare).len = 0 := by simp
  have key := sdLoop.eq_def transport atEOF rest mainErr data (fuel + 1) pre.length start index
  dsimp only at key
  rw [hfrom] at key
  simp only [Out.ret_bind, h0, if_false] at key
  constructor
  · intro hn
    subst hn
    have hs : searchNextSep ⟨[] ++ RBRK :: q, data.spare⟩ RBRK = .error .pos0 := by
      unfold searchNextSep
      rw [indexByte_append (by simp)]
      rfl
    rw [hs] at key
    exact key
  · intro p' c hpc
    have hs : searchNextSep ⟨p ++ RBRK :: q, data.spare⟩ RBRK = .ok p.length :=
      searchNextSep_ok.mpr ⟨p, q, rfl, rfl, hp, by rw [hpc]; simp⟩
    rw [hs] at key
    subst hpc
    have hat := at_before data (pre := pre) (p := p') (b := c) (q := RBRK :: q) (by rw [hd]; simp)
    simp only [hat, Out.ret_bind] at key
    have hc1 : c ≠ BSL := fun h => h1 p' (by rw [h])
    have hc2 : c ≠ DQ := fun h => h2 p' (by rw [h])
    rw [if_neg hc1, if_neg hc2] at key
    rw [key]
    have : pre.length + (p' ++ [c]).length - 1 = pre.length + p'.length := by simp
    rw [this]
    rfl

/-- What the loop does, by what is wrong with the structured data; `done` is what it has skipped already. -/
theorem sdLoop_diag (fuel : Nat) (st done rem : Bytes) (hd : data.vis = st ++ done ++ rem) (hf : rem.length < fuel)
    (hc : Closed done) (he : done = [] ∨ ∃ w, done = w ++ [RBRK]) (hr : rem = [] → ∃ w, done = w ++ [BSL, RBRK])
    (start : Nat) (index : List Int) :
    (∃ a c b, Stray (done ++ rem) (a ++ [c]) b ∧ c ≠ 93 ∧
      sdLoop transport atEOF rest mainErr data fuel (st ++ done).length start index =
        .ret (MsgImm.zero, rest,
          dispatchError mainErr (.parseError (st.length + a.length) "\\\\ or \" expected"))) ∨
    (∃ a b, Stray (done ++ rem) a b ∧ (a = [] ∨ ∃ w, a = w ++ b!"]") ∧
      sdLoop transport atEOF rest mainErr data fuel (st ++ done).length start index =
        .ret (MsgImm.zero, rest, dispatchError mainErr .pos0)) ∨
    (∃ a, done ++ rem = a ++ b!"\\]" ∧ Closed (done ++ rem) ∧
      sdLoop transport atEOF rest mainErr data fuel (st ++ done).length start index =
        .ret (MsgImm.zero, rest, dispatchError mainErr .impossible)) ∨
    (Closed (done ++ rem) ∧ (¬ ∃ a, done ++ rem = a ++ b!"\\]") ∧
      ∃ m, sdLoop transport atEOF rest mainErr data fuel (st ++ done).length start index =
        parseReturn m transport atEOF data rest) := by
  induction fuel generalizing done rem start index with
  | zero => omega
  | succ fuel ih =>
    by_cases hne : rem = []
    · right; right; left
      obtain ⟨w, hw⟩ := hr hne
      subst hne
      refine ⟨w, by rw [hw]; simp, by simpa using hc, ?_⟩
      have : (st ++ done).length = data.vis.length := by rw [hd]; simp
      rw [this, sdLoop_end]
    rcases sdLoop_step transport atEOF rest mainErr data fuel (st ++ done) rem hd hne start index with
      ⟨h1, h2⟩ | ⟨p, q, h1, h2, h3⟩ | ⟨p, q, h1, h2, h3⟩ | ⟨e, _, p, q, h2, h3, h4, h5⟩
    · right; right; right
      refine ⟨closed_append hc h1, ?_, _, h2⟩
      rintro ⟨a, h⟩
      rcases List.eq_nil_or_concat rem with h' | ⟨r', x, h'⟩
      · exact hne h'
      · rw [List.concat_eq_append] at h'
        subst h'
        have h : (done ++ r') ++ [x] = (a ++ [BSL]) ++ [RBRK] := by simpa using h
        have := List.append_inj_right' h rfl
        exact h1 (by simp at this; rw [this]; simp)
    · have e : done ++ rem = (done ++ p ++ [BSL, RBRK]) ++ q := by rw [h1]; simp
      have e2 : st ++ done ++ p ++ [BSL, RBRK] = st ++ (done ++ p ++ [BSL, RBRK]) := by simp
      rw [h3, e, e2]
      exact ih (done ++ p ++ [BSL, RBRK]) q (by rw [hd, h1]; simp) (by rw [h1] at hf; simp at hf; omega)
        (closed_esc hc h2 BSL (Or.inl rfl)) (Or.inr ⟨done ++ p ++ [BSL], by simp⟩) (fun _ => ⟨done ++ p, rfl⟩)
        start index
    · have e : done ++ rem = (done ++ p ++ [DQ, RBRK]) ++ q := by rw [h1]; simp
      have e2 : st ++ done ++ p ++ [DQ, RBRK] = st ++ (done ++ p ++ [DQ, RBRK]) := by simp
      have hcl : Closed (done ++ p ++ [DQ, RBRK]) := closed_esc hc h2 DQ (Or.inr rfl)
      by_cases hq : q = []
      · right; right; right
        subst hq
        rw [if_pos rfl] at h3
        refine ⟨by rw [e]; simpa using hcl, ?_, _, h3⟩
        rintro ⟨a, h⟩
        rw [e] at h
        have h : (done ++ p) ++ [DQ, RBRK] = a ++ [BSL, RBRK] := by simpa using h
        have := List.append_inj_right' h rfl
        exact absurd this (by decide)
      · rw [if_neg hq] at h3
        rw [h3, e, e2]
        exact ih (done ++ p ++ [DQ, RBRK]) q (by rw [hd, h1]; simp) (by rw [h1] at hf; simp at hf; omega)
          hcl (Or.inr ⟨done ++ p ++ [DQ], by simp⟩) (fun h => absurd h hq) _ _
    · have key := sdLoop_stray transport atEOF rest mainErr data fuel (st ++ done) p q (by rw [hd, h2]) h3 h4 h5
        start index
      have hnb : ∀ c : UInt8, c ≠ RBRK → (∀ p', p ≠ p' ++ [c]) → ¬ ∃ w, done ++ p = w ++ [c] := by
        rintro c hcb hpc ⟨w, hw⟩
        rcases List.eq_nil_or_concat p with h' | ⟨p', x, h'⟩
        · subst h'
          rw [List.append_nil] at hw
          rcases he with he | ⟨w', he⟩
          · rw [he] at hw; simp at hw
          · rw [he] at hw
            have := List.append_inj_right' hw rfl
            simp at this
            exact hcb this.symm
        · rw [List.concat_eq_append] at h'
          subst h'
          rw [← List.append_assoc] at hw
          have := List.append_inj_right' hw rfl
          simp at this
          exact hpc p' (by rw [this])
      have hst : Stray (done ++ rem) (done ++ p) q := by
        refine ⟨by rw [h2]; simp, closed_append hc h3, ?_⟩
        rintro ⟨w, hw | hw⟩
        · exact hnb BSL (by decide) h4 ⟨w, hw⟩
        · exact hnb DQ (by decide) h5 ⟨w, hw⟩
      rcases List.eq_nil_or_concat p with h' | ⟨p', x, h'⟩
      · right; left
        refine ⟨done ++ p, q, hst, ?_, key.1 h'⟩
        subst h'
        simpa using he
      · left
        rw [List.concat_eq_append] at h'
        refine ⟨done ++ p', x, q, ?_, ?_, ?_⟩
        · rw [h', ← List.append_assoc] at hst; exact hst
        · rintro rfl
          exact h3 (by rw [h']; simp)
        · rw [key.2 p' x h']
          simp [Nat.add_assoc]

/-! ## the body of Parse -/

/-- When the bytes are wrong, the parser says how. -/
theorem parseBody_of_wrong {e : Err} (h : Wrong data.vis e) :
    parseBody data rest mainErr transport atEOF = .ret (MsgImm.zero, rest, dispatchError mainErr e) := by
  have hsd : ∀ {fs : List Bytes} {tail p q : Bytes}, fs.length = 6 → (∀ f ∈ fs, RawField f) →
      tail = p ++ b!" " ++ q → (32 : UInt8) ∉ p → 2 ≤ p.length → data.vis = headerText fs ++ tail →
      parseBody data rest mainErr transport atEOF = sdLoop transport atEOF rest mainErr data (data.len + 1)
        (headerText fs ++ []).length (headerText fs).length (headerIndex 0 fs) := by
    intro fs tail p q h6 hf h1 h2 h3 hb
    rw [parseBody_header transport atEOF rest mainErr data h6 hf hb]
    have hl : tail.length = p.length + q.length + 1 := by rw [h1]; simp; omega
    rw [if_neg (by omega), if_neg (by omega)]
    rw [searchNextSep_ok.mpr ⟨p, q, by rw [h1]; simp, rfl, h2, by omega⟩]
    simp only
    rw [if_neg (by omega), List.append_nil]
  have hdiag : ∀ {fs : List Bytes} {tail p q : Bytes}, fs.length = 6 → (∀ f ∈ fs, RawField f) →
      tail = p ++ b!" " ++ q → (32 : UInt8) ∉ p → 2 ≤ p.length → (hb : data.vis = headerText fs ++ tail) → _ :=
    fun {fs tail p q} h6 hf h1 h2 h3 hb => (hsd h6 hf h1 h2 h3 hb) ▸
      sdLoop_diag transport atEOF rest mainErr data (data.len + 1) (headerText fs) [] tail
      (by rw [hb]; simp) (by simp [Slice.len, hb]; omega) closed_nil (Or.inl rfl)
      (fun h => by rw [h] at h1; simp at h1) (headerText fs).length (headerIndex 0 fs)
  generalize hb : data.vis = b at h
  cases h with
  | nothing =>
    unfold parseBody
    have hpos : ¬ data.len > 0 := by simp [Slice.len, hb]
    rw [if_neg hpos]
    simp only [fieldLoop, Out.ret_bind]
    rw [Slice.from_nat (by simp)]
    simp only [Out.ret_bind, Slice.len_mk, hb]
    rfl
  | @headerCut fs r h6 hf hr hne =>
    unfold parseBody
    have hpos : data.len > 0 := by
      rw [Slice.len, hb]
      exact List.length_pos_iff.mpr hne
    rw [if_pos hpos]
    obtain ⟨n, hn⟩ : ∃ n, 6 = fs.length + (n + 1) := ⟨5 - fs.length, by omega⟩
    obtain ⟨idx', h1⟩ := fieldLoop_run data fs (n + 1) [] [] r hf (by rw [hb]; simp)
    rw [hn]
    simp only [List.length_nil] at h1
    rw [h1, (fieldLoop_stop data n ([] ++ headerText fs) r idx' (by rw [hb]; simp)).1 hr]
    rfl
  | @headerEmpty fs r h6 hf =>
    unfold parseBody
    have hpos : data.len > 0 := by
      rw [Slice.len, hb]; simp; omega
    rw [if_pos hpos]
    obtain ⟨n, hn⟩ : ∃ n, 6 = fs.length + (n + 1) := ⟨5 - fs.length, by omega⟩
    obtain ⟨idx', h1⟩ := fieldLoop_run data fs (n + 1) [] [] (SP :: r) hf (by rw [hb]; simp)
    rw [hn]
    simp only [List.length_nil] at h1
    rw [h1, (fieldLoop_stop data n ([] ++ headerText fs) (SP :: r) idx' (by rw [hb]; simp)).2 r rfl]
    rfl
  | @noData fs h6 hf =>
    rw [parseBody_header transport atEOF rest mainErr data h6 hf (tail := []) (by rw [hb]; simp)]
    simp
  | @oneByte fs c h6 hf hc =>
    rw [parseBody_header transport atEOF rest mainErr data h6 hf hb]
    rw [if_neg (by simp), if_pos (by simp), if_pos (by simpa using hc)]
  | @noSpace fs tail h6 hf hl hs =>
    rw [parseBody_header transport atEOF rest mainErr data h6 hf hb]
    rw [if_neg (by omega), if_neg (by omega)]
    have : searchNextSep ⟨tail, data.spare⟩ SP = .error .posNotFound := by
      unfold searchNextSep
      rw [indexByte_none.mpr hs]
    rw [this]
  | @spaceFirst fs r h6 hf hr =>
    rw [parseBody_header transport atEOF rest mainErr data h6 hf (tail := SP :: r) (by rw [hb]; simp)]
    have hl : r.length ≠ 0 := by simpa using hr
    rw [if_neg (by simp), if_neg (by simpa using hr)]
    have : searchNextSep ⟨SP :: r, data.spare⟩ SP = .error .pos0 := by
      unfold searchNextSep
      rw [show SP :: r = [] ++ SP :: r from rfl, indexByte_append (by simp)]
      rfl
    rw [this]
  | @notDash fs c r h6 hf hc hc2 =>
    rw [parseBody_header transport atEOF rest mainErr data h6 hf (tail := c :: SP :: r) (by rw [hb]; simp)]
    rw [if_neg (by simp), if_neg (by simp)]
    rw [searchNextSep_ok.mpr ⟨[c], r, rfl, rfl, by simpa using Ne.symm hc2, by simp⟩]
    simp only [List.length_singleton, if_true, List.head?_cons]
    exact if_pos (by simpa using hc)
  | @strayAfter fs tail a b c h6 hf hsp hst hc =>
    obtain ⟨p, q, h1, h2, h3⟩ := hsp
    rcases hdiag h6 hf h1 h2 h3 hb with ⟨a', c', b', g1, g2, g3⟩ | ⟨a', b', g1, g2, g3⟩ | ⟨a', g1, g2, g3⟩ | ⟨g1, _⟩
    · have := (stray_unique hst g1).1
      have := List.append_inj_left' this rfl
      rw [g3, this]
    · exfalso
      have := (stray_unique hst g1).1
      rw [← this] at g2
      rcases g2 with g2 | ⟨w, g2⟩
      · simp at g2
      · have := List.append_inj_right' g2 rfl
        simp at this
        exact hc this
    · exact absurd g2 (stray_not_closed hst)
    · exact absurd g1 (stray_not_closed hst)
  | @strayFirst fs tail a b h6 hf hsp hst ha =>
    obtain ⟨p, q, h1, h2, h3⟩ := hsp
    rcases hdiag h6 hf h1 h2 h3 hb with ⟨a', c', b', g1, g2, g3⟩ | ⟨a', b', g1, g2, g3⟩ | ⟨a', g1, g2, g3⟩ | ⟨g1, _⟩
    · exfalso
      have := (stray_unique hst g1).1
      rw [this] at ha
      rcases ha with ha | ⟨w, ha⟩
      · simp at ha
      · have := List.append_inj_right' ha rfl
        simp at this
        exact g2 this
    · exact g3
    · exact absurd g2 (stray_not_closed hst)
    · exact absurd g1 (stray_not_closed hst)
  | @openEnd fs tail a h6 hf hsp hend hcl =>
    obtain ⟨p, q, h1, h2, h3⟩ := hsp
    rcases hdiag h6 hf h1 h2 h3 hb with ⟨a', c', b', g1, g2, g3⟩ | ⟨a', b', g1, g2, g3⟩ | ⟨a', g1, g2, g3⟩ | ⟨_, g1, _⟩
    · exact absurd hcl (stray_not_closed g1)
    · exact absurd hcl (stray_not_closed g1)
    · exact g3
    · exact absurd ⟨a, hend⟩ g1

/-- Either the bytes are wrong, or the parser goes on to the end of the message. -/
theorem wrong_or_goes_on :
    (∃ e, Wrong data.vis e) ∨ ∃ m, parseBody data rest mainErr transport atEOF = parseReturn m transport atEOF data rest := by
  by_cases h0 : data.vis = []
  · left; rw [h0]; exact ⟨_, .nothing⟩
  obtain ⟨fs, tail, h1, hf, hb, h4⟩ := header_split 6 data.vis
  by_cases h6 : fs.length < 6
  · left
    rcases h4 h6 with h | ⟨q, h⟩
    · exact ⟨_, by rw [hb]; exact .headerCut h6 hf h (by rw [← hb]; exact h0)⟩
    · refine ⟨_, by rw [hb, h]; have := Wrong.headerEmpty (r := q) h6 hf; simpa using this⟩
  have h6 : fs.length = 6 := by omega
  rw [parseBody_header transport atEOF rest mainErr data h6 hf hb, hb]
  by_cases hl0 : tail.length = 0
  · left
    have : tail = [] := by simpa using hl0
    subst this
    exact ⟨_, by rw [List.append_nil]; exact .noData h6 hf⟩
  rw [if_neg hl0]
  by_cases hl1 : tail.length = 1
  · obtain ⟨c, rfl⟩ : ∃ c, tail = [c] := by
      match tail, hl1 with
      | [c], _ => exact ⟨c, rfl⟩
    by_cases hc : c = DASH
    · right
      rw [if_pos hl1, if_neg (by simpa using hc)]
      exact ⟨_, rfl⟩
    · exact Or.inl ⟨_, .oneByte h6 hf hc⟩
  rw [if_neg hl1]
  rcases searchNextSep_cases ⟨tail, data.spare⟩ SP with ⟨_, h2⟩ | ⟨_, q, h2⟩ | ⟨p, q, h2, h3, h4, h5⟩
  · exact Or.inl ⟨_, .noSpace h6 hf (by omega) h2⟩
  · left
    simp only at h2
    subst h2
    have := Wrong.spaceFirst (r := q) h6 hf (by simpa using hl1)
    exact ⟨_, by simpa using this⟩
  · simp only at h2
    rw [h5]
    simp only
    by_cases h7 : p.length = 1
    · obtain ⟨c, rfl⟩ : ∃ c, p = [c] := by
        match p, h7 with
        | [c], _ => exact ⟨c, rfl⟩
      subst h2
      rw [if_pos h7]
      by_cases hc : c = DASH
      · right
        subst hc
        exact ⟨_, if_neg (by simp)⟩
      · left
        have := Wrong.notDash (r := q) h6 hf hc (by simpa [eq_comm] using h3)
        exact ⟨_, by simpa using this⟩
    · rw [if_neg h7]
      have h9 : 2 ≤ p.length := by
        have : p.length ≠ 0 := by simpa using h4
        omega
      have hsp : ∃ p q, tail = p ++ b!" " ++ q ∧ (32 : UInt8) ∉ p ∧ 2 ≤ p.length := ⟨p, q, by rw [h2]; simp, h3, h9⟩
      have key := sdLoop_diag transport atEOF rest mainErr data (data.len + 1) (headerText fs) [] tail
        (by rw [hb]; simp) (by simp [Slice.len, hb]; omega) closed_nil (Or.inl rfl)
        (fun h => absurd (by rw [h]; rfl) hl0) (headerText fs).length (headerIndex 0 fs)
      rw [List.append_nil] at key
      rcases key with ⟨a', c', b', g1, g2, g3⟩ | ⟨a', b', g1, g2, g3⟩ | ⟨a', g1, g2, g3⟩ | ⟨_, _, m, g1⟩
      · exact Or.inl ⟨_, .strayAfter h6 hf hsp g1 g2⟩
      · exact Or.inl ⟨_, .strayFirst h6 hf hsp g1 g2⟩
      · exact Or.inl ⟨_, .openEnd h6 hf hsp g1 g2⟩
      · exact Or.inr ⟨m, g1⟩

end

/-- The error is determined by the bytes. -/
theorem wrong_unique {b : Bytes} {e e' : Err} (h : Wrong b e) (h' : Wrong b e') : e = e' := by
  have h1 := parseBody_of_wrong none true none none ⟨b, []⟩ (e := e) h
  rw [parseBody_of_wrong none true none none ⟨b, []⟩ (e := e') h'] at h1
  simp only [dispatchError, Out.ret.injEq, Prod.mk.injEq, Option.some.injEq] at h1
  exact h1.2.2.symm

/-- Something is wrong exactly when the bytes do not have the shape of a message. -/
theorem wrong_iff {b : Bytes} : (∃ e, Wrong b e) ↔ ¬ ∃ fs xs o, Frame b fs xs o := by
  constructor
  · rintro ⟨e, h⟩ ⟨fs, xs, o, hf⟩
    obtain ⟨idx, txt, hL⟩ := hf.layout
    have h1 := parseBody_of_wrong none true none none ⟨b, []⟩ (e := e) h
    rw [parseBody_complete none true none none ⟨b, []⟩ hL] at h1
    simp [parseReturn, dispatchError] at h1
  · intro hn
    rcases wrong_or_goes_on none true none none ⟨b, []⟩ with h | ⟨m, h⟩
    · exact h
    · rcases parseBody_sound none true none none ⟨b, []⟩ with ⟨e, h'⟩ | ⟨fs, xs, o, idx, txt, hL, _⟩
      · rw [h] at h'
        simp [parseReturn, dispatchError] at h'
      · exact absurd ⟨fs, xs, o, hL.frame⟩ hn

theorem frame_not_wrong {b : Bytes} {fs xs : List Bytes} {o : Option Bytes} (h : Frame b fs xs o) {e : Err} : ¬ Wrong b e :=
  fun hw => wrong_iff.mp ⟨e, hw⟩ ⟨fs, xs, o, h⟩

end Syslog5424
