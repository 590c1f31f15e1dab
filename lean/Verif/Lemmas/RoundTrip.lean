import Verif.Lemmas.ParseCases
import Verif.Lemmas.Time
import Verif.Props.Priority
import Verif.Props.Fields
import Verif.Props.SData
import Verif.Props.Encoder
import Verif.Spec.Message
/-! # Lemmas: marshalled messages have the layout the parser expects -/
namespace Syslog5424
open Spec

/-! ## elements -/

/-- Bytes that can be put before an element or something quiet. -/
def Absorbs (p : Bytes) : Prop := (∀ y, Element y → Element (p ++ y)) ∧ (∀ y, Quiet y → Quiet (p ++ y))

theorem Absorbs.append {p q : Bytes} (hp : Absorbs p) (hq : Absorbs q) : Absorbs (p ++ q) :=
  ⟨fun y hy => by rw [List.append_assoc]; exact hp.1 _ (hq.1 y hy),
   fun y hy => by rw [List.append_assoc]; exact hp.2 _ (hq.2 y hy)⟩

theorem absorbs_plain {p : Bytes} (h : (93 : UInt8) ∉ p) : Absorbs p := by
  constructor
  · intro y hy
    cases hy with
    | @last q hq =>
      rw [← List.append_assoc]
      exact .last (by simp [h, hq])
    | @esc q r hq hr =>
      rw [show p ++ (q ++ [92, 93] ++ r) = (p ++ q) ++ [92, 93] ++ r by simp]
      exact .esc (by simp [h, hq]) hr
  · intro y hy
    cases hy with
    | last hn hq => exact .last (by simp [hn]) (by simp [h, hq])
    | @esc q r hq hr =>
      rw [show p ++ (q ++ [92, 93] ++ r) = (p ++ q) ++ [92, 93] ++ r by simp]
      exact .esc (by simp [h, hq]) hr

theorem absorbs_esc (c : UInt8) : Absorbs [92, c] := by
  by_cases hc : c = 93
  · subst hc
    exact ⟨fun y hy => .esc (p := []) (by simp) hy, fun y hy => .esc (p := []) (by simp) hy⟩
  · exact absorbs_plain (by simp [Ne.symm hc])

theorem absorbs_raw {v : Bytes} (h : RawValue v) : Absorbs v := by
  induction h with
  | nil => exact absorbs_plain (by simp)
  | @byte c r h1 h2 h3 _ ih =>
    exact (absorbs_plain (p := [c]) (by simp [Ne.symm h3])).append ih
  | @escaped c r _ ih => exact (absorbs_esc c).append ih

theorem name_plain {n : Bytes} (h : IsName n) : (93 : UInt8) ∉ n := by
  intro hm; exact (h.2 93 hm).2.2.2.1 rfl

theorem name_no_sp {n : Bytes} (h : IsName n) : (32 : UInt8) ∉ n := by
  intro hm; exact absurd (h.2 32 hm) (by decide)

theorem nameBytes_plain {n : Bytes} (h : ∀ c ∈ n, NameByte c) : (93 : UInt8) ∉ n := by
  intro hm; exact (h 93 hm).2.2.2.1 rfl

theorem absorbs_param {p : Bytes × Bytes} (h1 : ∀ c ∈ p.1, NameByte c) (h2 : RawValue p.2) :
    Absorbs (b!" " ++ paramText p) := by
  unfold paramText
  exact (absorbs_plain (by decide)).append
    ((((absorbs_plain (nameBytes_plain h1)).append (absorbs_plain (by decide))).append (absorbs_raw h2)).append
      (absorbs_plain (by decide)))

theorem element_of_wellFormed {id : Bytes} {ps : List (Bytes × Bytes)} (hw : WellFormed id ps) (hne : ps ≠ []) :
    Element (elementText id ps) := by
  obtain ⟨init, ⟨n, v⟩, rfl⟩ : ∃ init p, ps = init ++ [p] := by
    rcases List.eq_nil_or_concat ps with h | ⟨i, p, h⟩
    · exact absurd h hne
    · exact ⟨i, p, by rw [h, List.concat_eq_append]⟩
  have hinit : Absorbs (init.map fun p => b!" " ++ paramText p).flatten := by
    have : ∀ l : List (Bytes × Bytes), (∀ p ∈ l, (∀ c ∈ p.1, NameByte c) ∧ RawValue p.2) →
        Absorbs (l.map fun p => b!" " ++ paramText p).flatten := by
      intro l
      induction l with
      | nil => intro _; exact absorbs_plain (by simp)
      | cons a r ih =>
        intro h
        simp only [List.map_cons, List.flatten_cons]
        exact (absorbs_param (h a (by simp)).1 (h a (by simp)).2).append (ih fun p hp => h p (by simp [hp]))
    exact this init fun p hp => hw.2.1 p (by simp [hp])
  have hl := hw.2.1 (n, v) (by simp)
  have e : elementText id (init ++ [(n, v)]) =
      ((b!"[" ++ id) ++ (init.map fun p => b!" " ++ paramText p).flatten ++ (b!" " ++ (n ++ b!"=\"" ++ v))) ++ b!"\"]" := by
    simp [elementText, paramText]
  rw [e]
  have h0 : Element (b!"\"]") := .last (p := []) (by simp)
  exact ((((absorbs_plain (by decide : (93 : UInt8) ∉ b!"[")).append (absorbs_plain (name_plain hw.1))).append hinit).append
    ((absorbs_plain (by decide)).append (((absorbs_plain (nameBytes_plain hl.1)).append (absorbs_plain (by decide))).append
      (absorbs_raw hl.2)))).1 _ h0

theorem freeText_plain {t : Bytes} (h : (93 : UInt8) ∉ t) : FreeText t := by
  intro a b e
  exact absurd (by rw [e]; simp) h

theorem freeText_tail {a b : Bytes} (h : FreeText (a ++ 93 :: b)) : FreeText b := by
  intro a2 b2 e
  obtain ⟨h1, h2⟩ := h (a ++ 93 :: a2) b2 (by rw [e]; simp)
  refine ⟨?_, h2⟩
  rcases List.eq_nil_or_concat a2 with rfl | ⟨c, x, rfl⟩
  · simp at h1
  · rw [show a ++ 93 :: c.concat x = (a ++ 93 :: c) ++ [x] by simp, List.getLast?_concat] at h1
    simpa using h1

/-- `Quiet`, without the recursion. -/
theorem quiet_iff {q : Bytes} : Quiet q ↔ q ≠ [] ∧ FreeText q := by
  constructor
  · intro h
    induction h with
    | last h1 h2 => exact ⟨h1, freeText_plain h2⟩
    | @esc p r h1 _ ih =>
      refine ⟨by simp, fun a b e => ?_⟩
      have e' : p ++ [92] ++ 93 :: r = a ++ 93 :: b := by rw [← e]; simp
      rcases List.append_eq_append_iff.mp e' with ⟨c, e1, e2⟩ | ⟨c, e1, e2⟩
      · cases c with
        | nil =>
          simp only [List.append_nil, List.nil_append, List.cons.injEq, true_and] at e1 e2
          rw [e1, ← e2]
          exact ⟨by simp, ih.1⟩
        | cons x c =>
          simp only [List.cons_append, List.cons.injEq] at e2
          obtain ⟨g1, g2⟩ := ih.2 c b e2.2
          refine ⟨?_, g2⟩
          rcases List.eq_nil_or_concat c with rfl | ⟨d, y, rfl⟩
          · simp at g1
          · rw [e1, show p ++ [92] ++ x :: d.concat y = (p ++ [92] ++ x :: d) ++ [y] by simp, List.getLast?_concat]
            simpa using g1
      · cases c with
        | nil =>
          simp only [List.append_nil, List.nil_append, List.cons.injEq, true_and] at e1 e2
          rw [← e1, e2]
          exact ⟨by simp, ih.1⟩
        | cons x c =>
          simp only [List.cons_append, List.cons.injEq] at e2
          obtain ⟨rfl, _⟩ := e2
          have : (93 : UInt8) ∈ p ++ [92] := by rw [e1]; simp
          simp [h1] at this
  · rintro ⟨h1, h2⟩
    generalize hn : q.length = n
    induction n using Nat.strongRecOn generalizing q with
    | _ n ih =>
      by_cases hq : (93 : UInt8) ∈ q
      · obtain ⟨a, b, rfl, ha⟩ := List.eq_append_cons_of_mem hq
        obtain ⟨g1, g2⟩ := h2 a b rfl
        rcases List.eq_nil_or_concat a with rfl | ⟨c, y, rfl⟩
        · simp at g1
        have : y = 92 := by simpa using g1
        subst this
        have := Quiet.esc (p := c) (fun h => ha (by simp [h])) (ih b.length (by rw [← hn]; simp; omega) g2 (freeText_tail h2) rfl)
        simpa using this
      · exact .last h1 hq

theorem freeText_cons {y : UInt8} {t : Bytes} (hy : y ≠ 93) : (∀ b, t = 93 :: b → y = 92) → FreeText t → FreeText (y :: t) := by
  intro hb h a b e
  cases a with
  | nil =>
    simp only [List.nil_append, List.cons.injEq] at e
    exact absurd e.1 hy
  | cons x a =>
    simp only [List.cons_append, List.cons.injEq] at e
    obtain ⟨rfl, e⟩ := e
    obtain ⟨g1, g2⟩ := h a b e
    refine ⟨?_, g2⟩
    cases a with
    | nil => simp at g1
    | cons z a => rw [List.getLast?_cons_cons]; exact g1

theorem freeText_snoc {z : UInt8} {t : Bytes} (h : FreeText t) (hz : z ≠ 93) : FreeText (t ++ [z]) := by
  intro a b e
  rcases List.eq_nil_or_concat b with rfl | ⟨c, y, rfl⟩
  · have := congrArg List.getLast? e
    rw [List.getLast?_concat, List.getLast?_concat] at this
    exact absurd (Option.some.inj this) hz
  · have e' : t ++ [z] = (a ++ 93 :: c) ++ [y] := by rw [e]; simp
    obtain ⟨e1, _⟩ := List.append_inj' e' rfl
    exact ⟨(h a c e1).1, by simp⟩

theorem quiet_text {t : Bytes} (h : FreeText t) : Quiet (32 :: t) := by
  refine quiet_iff.mpr ⟨by simp, freeText_cons (by decide) ?_ h⟩
  rintro b rfl
  exact absurd (h [] b rfl).1 (by simp)

theorem quiet_plain {t : Bytes} (h1 : t ≠ []) (h2 : (93 : UInt8) ∉ t) : Quiet t := .last h1 h2

/-- Elements followed by nothing or by something quiet. -/
theorem items_of {xs : List Bytes} (hx : ∀ x ∈ xs, Element x) (hne : xs ≠ []) :
    Items xs.flatten xs none ∧ ∀ q, Quiet q → Items (xs.flatten ++ q) xs (some q) := by
  induction xs with
  | nil => exact absurd rfl hne
  | cons x r ih =>
    have h1 := hx x (by simp)
    cases r with
    | nil =>
      refine ⟨by simpa using Items.stop h1, ?_⟩
      intro q hq
      have := Items.more h1 (.quiet hq)
      simpa using this
    | cons y r =>
      obtain ⟨i1, i2⟩ := ih (fun z hz => hx z (by simp [hz])) (by simp)
      refine ⟨by simpa using Items.more h1 i1, ?_⟩
      intro q hq
      have := Items.more h1 (i2 q hq)
      simpa using this

/-! ## uniqueness of the decomposition -/

theorem element_inj {x x' r r' : Bytes} (h : Element x) (h' : Element x') (e : x ++ r = x' ++ r') : x = x' ∧ r = r' := by
  induction h generalizing x' r' with
  | @last p hp =>
    cases h' with
    | @last p' hp' =>
      have := firstBrk (p := p ++ [DQ]) (q := r) (p' := p' ++ [DQ]) (q' := r') (by simpa using e) (nb_dq hp) (nb_dq hp')
      have e1 := List.append_inj_left' this.1 rfl
      exact ⟨by rw [e1], this.2⟩
    | @esc p' s hp' hs =>
      exfalso
      have := (firstBrk (p := p ++ [DQ]) (q := r) (p' := p' ++ [BSL]) (q' := s ++ r') (by simpa using e) (nb_dq hp) (nb_bsl hp')).1
      have := List.append_inj_right' this rfl
      simp at this
      exact absurd this (by decide)
  | @esc p s hp hs ih =>
    cases h' with
    | @last p' hp' =>
      exfalso
      have := (firstBrk (p := p ++ [BSL]) (q := s ++ r) (p' := p' ++ [DQ]) (q' := r') (by simpa using e) (nb_bsl hp) (nb_dq hp')).1
      have := List.append_inj_right' this rfl
      simp at this
      exact absurd this (by decide)
    | @esc p' s' hp' hs' =>
      have := firstBrk (p := p ++ [BSL]) (q := s ++ r) (p' := p' ++ [BSL]) (q' := s' ++ r') (by simpa using e) (nb_bsl hp) (nb_bsl hp')
      have e1 := List.append_inj_left' this.1 rfl
      obtain ⟨e2, e3⟩ := ih hs' this.2
      exact ⟨by rw [e1, e2], e3⟩

theorem element_not_quiet {x r q : Bytes} (h : Element x) (hq : Quiet q) (e : x ++ r = q) : False := by
  induction h generalizing q with
  | @last p hp =>
    cases hq with
    | last hn hq => exact hq (by rw [← e]; simp)
    | @esc p' s hp' hs =>
      have := (firstBrk (p := p ++ [DQ]) (q := r) (p' := p' ++ [BSL]) (q' := s) (by simpa using e) (nb_dq hp) (nb_bsl hp')).1
      have := List.append_inj_right' this rfl
      simp at this
      exact absurd this (by decide)
  | @esc p s hp hs ih =>
    cases hq with
    | last hn hq => exact hq (by rw [← e]; simp)
    | @esc p' s' hp' hs' =>
      have := firstBrk (p := p ++ [BSL]) (q := s ++ r) (p' := p' ++ [BSL]) (q' := s') (by simpa using e) (nb_bsl hp) (nb_bsl hp')
      exact ih hs' this.2

/-- After an element, the rest is decomposed independently. -/
theorem items_cons {x r : Bytes} {ys : List Bytes} {o : Option Bytes} (h : Element x) (hr : r ≠ [])
    (hi : Items (x ++ r) ys o) : ∃ zs, ys = x :: zs ∧ Items r zs o := by
  generalize hb : x ++ r = b at hi
  cases hi with
  | stop h' =>
    obtain ⟨e1, e2⟩ := element_inj (r' := []) h h' (by simpa using hb)
    exact absurd e2 hr
  | quiet hq => exact (element_not_quiet h hq hb).elim
  | more h' hi' =>
    obtain ⟨e1, e2⟩ := element_inj h h' hb
    subst e1; subst e2
    exact ⟨_, rfl, hi'⟩

theorem items_flatten {xs : List Bytes} (hx : ∀ x ∈ xs, Element x) {r : Bytes} (hr : r ≠ []) {ys : List Bytes} {o : Option Bytes}
    (hi : Items (xs.flatten ++ r) ys o) : ∃ zs, ys = xs ++ zs ∧ Items r zs o := by
  induction xs generalizing ys with
  | nil => exact ⟨ys, rfl, by simpa using hi⟩
  | cons x l ih =>
    rw [List.flatten_cons, List.append_assoc] at hi
    obtain ⟨zs, rfl, h2⟩ := items_cons (hx x (by simp)) (by simp [hr]) hi
    obtain ⟨ws, rfl, h3⟩ := ih (fun z hz => hx z (by simp [hz])) h2
    exact ⟨ws, rfl, h3⟩

/-! ## marshalled messages -/

theorem validField_raw {n : Nat} {f : Bytes} (h : ValidField n f) : RawField f := by
  refine ⟨?_, ?_⟩
  · rintro rfl; exact absurd h.1 (by decide)
  · intro hm
    have := h.2.2 32 hm
    exact absurd this (by decide)

theorem format_raw (t : Time) : RawField t.format := by
  refine ⟨?_, ?_⟩
  · intro h
    have := Time.format_length t
    rw [h] at this; simp at this
  · intro hm
    have := Time.format_print t 32 hm
    exact absurd this (by decide)

theorem marshal_raw {p : Int} (h0 : 0 ≤ p) (h1 : p ≤ 299) : RawField (Priority.marshal p) := by
  obtain ⟨ds, hd, he⟩ := C01_marshal_format p h0 h1
  rw [he]
  refine ⟨by simp, ?_⟩
  intro hm
  simp only [List.mem_append, List.mem_cons, List.not_mem_nil, or_false] at hm
  rcases hm with (hm | hm) | hm | hm
  · exact absurd hm (by decide)
  · exact absurd (hd.2.1 _ hm) (by decide)
  · exact absurd hm (by decide)
  · exact absurd hm (by decide)

/-- The header fields of a message as they are written. -/
def wireFields (m : Message) : List Bytes :=
  [Priority.marshal m.prio, m.timestamp.format, m.hostname, m.appname, m.procid, m.msgid]

/-- The marshalled message, given the encoding of its structured data. -/
theorem marshal_eq (m : Message) (sd : Bytes) (h : sdListMarshal m.sd = .ret (.ok sd)) :
    m.marshal = .ret (.ok (headerText (wireFields m) ++ sd ++ (if m.message = [] then [] else SP :: m.message))) := by
  unfold Message.marshal
  rw [h]
  simp only [Res.bind]
  split <;> simp [headerText, wireFields]

theorem GoodMsg.raw {m : Message} (h : GoodMsg m) : ∀ f ∈ wireFields m, RawField f := by
  intro f hf
  simp only [wireFields, List.mem_cons, List.not_mem_nil, or_false] at hf
  rcases hf with rfl | rfl | rfl | rfl | rfl | rfl
  · exact marshal_raw h.prio.1 h.prio.2
  · exact format_raw _
  · exact validField_raw h.host
  · exact validField_raw h.app
  · exact validField_raw h.pid
  · exact validField_raw h.mid

/-- Without structured data. -/
theorem layout_dash {m : Message} (h : GoodMsg m) (hsd : m.sd = []) :
    ∃ b idx txt, m.marshal = .ret (.ok b) ∧
      Layout b (wireFields m) [] (if m.message = [] then none else some (SP :: m.message)) idx txt := by
  have hs : sdListMarshal m.sd = .ret (.ok b!"-") := by rw [hsd]; rfl
  rw [marshal_eq m _ hs]
  by_cases ht : m.message = []
  · rw [if_pos ht, if_pos ht]
    exact ⟨_, _, _, rfl, by simpa using Layout.dash rfl h.raw⟩
  · rw [if_neg ht, if_neg ht]
    have := Layout.dashText (t := m.message) rfl h.raw
    exact ⟨_, _, _, rfl, by simpa using this⟩

/-- With structured data: the tail starts with `[id `. -/
theorem sd_space {xs : List (Bytes × List (Bytes × Bytes))} (hx : ∀ x ∈ xs, WellFormed x.1 x.2 ∧ x.2 ≠ []) (hne : xs ≠ [])
    (r : Bytes) :
    ∃ p q, (xs.map fun x => elementText x.1 x.2).flatten ++ r = p ++ SP :: q ∧ SP ∉ p ∧ 2 ≤ p.length := by
  cases xs with
  | nil => exact absurd rfl hne
  | cons x l =>
    obtain ⟨hw, hn⟩ := hx x (by simp)
    obtain ⟨id, ps⟩ := x
    cases ps with
    | nil => exact absurd rfl hn
    | cons a ps =>
      refine ⟨LBRK :: id, paramText a ++ (ps.map fun p => b!" " ++ paramText p).flatten ++ b!"]" ++
        (l.map fun x => elementText x.1 x.2).flatten ++ r, ?_, ?_, ?_⟩
      · simp [elementText]
      · simp only [List.mem_cons, not_or]
        exact ⟨by decide, name_no_sp hw.1⟩
      · have : 0 < id.length := List.length_pos_iff.mpr hw.1.1
        simp; omega

theorem MarshalsTo.list {sd : List SD} {xs} (h : MarshalsTo sd xs) (hne : sd ≠ []) :
    sdListMarshal sd = .ret (.ok (xs.map fun x => elementText x.1 x.2).flatten) := by
  apply C25_concat sd _ hne
  rw [h.1, List.map_map]; rfl

theorem MarshalsTo.elements {sd : List SD} {xs} (h : MarshalsTo sd xs) :
    ∀ x ∈ xs.map (fun x => elementText x.1 x.2), Element x := by
  intro x hx
  simp only [List.mem_map] at hx
  obtain ⟨y, hy, rfl⟩ := hx
  exact element_of_wellFormed (h.2 y hy).1 (h.2 y hy).2

theorem MarshalsTo.ne {sd : List SD} {xs} (h : MarshalsTo sd xs) (hne : sd ≠ []) : xs ≠ [] := by
  rintro rfl
  have := h.1
  simp at this
  exact hne this

theorem layout_sd {m : Message} (h : GoodMsg m) {xs} (hsd : MarshalsTo m.sd xs) (hne : m.sd ≠ [])
    (ht : m.message ≠ [] → Quiet (SP :: m.message)) :
    ∃ b idx txt, m.marshal = .ret (.ok b) ∧
      Layout b (wireFields m) (xs.map fun x => elementText x.1 x.2)
        (if m.message = [] then none else some (SP :: m.message)) idx txt := by
  rw [marshal_eq m _ (hsd.list hne)]
  have hxne := hsd.ne hne
  have hi := items_of hsd.elements (by simpa using hxne)
  by_cases h0 : m.message = []
  · rw [if_pos h0, if_pos h0]
    have hs := sd_space hsd.2 hxne []
    rw [List.append_nil] at hs ⊢
    exact ⟨_, _, _, rfl, Layout.sd rfl h.raw hi.1 hs⟩
  · rw [if_neg h0, if_neg h0]
    rw [List.append_assoc]
    exact ⟨_, _, _, rfl, Layout.sd rfl h.raw (hi.2 _ (ht h0)) (sd_space hsd.2 hxne _)⟩

/-- With or without structured data. -/
theorem layout_msg {m : Message} (h : GoodMsg m) {xs} (hsd : MarshalsTo m.sd xs)
    (ht : m.sd ≠ [] → m.message ≠ [] → Quiet (SP :: m.message)) :
    ∃ b idx txt, m.marshal = .ret (.ok b) ∧
      Layout b (wireFields m) (xs.map fun x => elementText x.1 x.2)
        (if m.message = [] then none else some (SP :: m.message)) idx txt := by
  by_cases hne : m.sd = []
  · have hx : xs = [] := by
      have := hsd.1
      rw [hne] at this
      cases xs with
      | nil => rfl
      | cons a r => simp at this
    subst hx
    exact layout_dash h hne
  · exact layout_sd h hsd hne (ht hne)

/-- Splitting at the first occurrence of a byte is unique. -/
theorem firstByte {c : UInt8} {p q p' q' : Bytes} (h : p ++ c :: q = p' ++ c :: q') (h1 : c ∉ p) (h2 : c ∉ p') :
    p = p' ∧ q = q' := by
  have e1 := indexByte_append (c := c) (q := q) h1
  have e2 := indexByte_append (c := c) (q := q') h2
  rw [h, e2] at e1
  simp only [Option.some.injEq] at e1
  obtain ⟨g4, g5⟩ := List.append_inj h e1.symm
  exact ⟨g4, by simpa using g5⟩

/-- The header fields can be read off in only one way. -/
theorem header_inj {fs gs : List Bytes} (hl : fs.length = gs.length) (hf : ∀ f ∈ fs, RawField f) (hg : ∀ f ∈ gs, RawField f)
    {a b : Bytes} (h : headerText fs ++ a = headerText gs ++ b) : fs = gs ∧ a = b := by
  induction fs generalizing gs with
  | nil =>
    cases gs with
    | nil => exact ⟨rfl, by simpa [headerText] using h⟩
    | cons => simp at hl
  | cons f r ih =>
    cases gs with
    | nil => simp at hl
    | cons g r' =>
      simp only [headerText, List.flatMap_cons, List.append_assoc, List.cons_append, List.nil_append] at h
      obtain ⟨e1, e2⟩ := firstByte h (hf f (by simp)).2 (hg g (by simp)).2
      obtain ⟨e3, e4⟩ := ih (gs := r') (by simpa using hl) (fun x hx => hf x (by simp [hx])) (fun x hx => hg x (by simp [hx])) e2
      exact ⟨by rw [e1, e3], e4⟩

theorem parse_layout (data : Slice) (atEOF : Bool) {fs xs o idx txt} (h : Layout data.vis fs xs o idx txt) :
    parse (some data) none atEOF = .ret (⟨data, idx, txt⟩, none, none) :=
  parseBody_complete none atEOF none none data h

/-- Decoding the elements when nothing is registered. -/
theorem decodeAll_wellFormed (following : Bytes) (xs : List (Bytes × List (Bytes × Bytes)))
    (h : ∀ x ∈ xs, WellFormed x.1 x.2 ∧ x.2 ≠ []) :
    decodeAll [] following (xs.map fun x => elementText x.1 x.2) = .ret (xs.map fun x => .unknown x.1 x.2) := by
  induction xs with
  | nil => rfl
  | cons x r ih =>
    have := ih fun y hy => h y (by simp [hy])
    obtain ⟨hw, hn⟩ := h x (by simp)
    simp only [List.map_cons, decodeAll, registryFound]
    obtain ⟨b, _, hb, hd⟩ := C22_encode_decode_partial x.1 x.2 hw hn ((r.map fun x => elementText x.1 x.2).flatten ++ following)
    subst hb
    rw [hd, this]
    rfl

/-- The general case: every element is decoded to something. -/
theorem decodeAll_some (reg : List SDID) (following : Bytes) (xs : List Bytes) (f : Bytes → SD)
    (h : ∀ x ∈ xs, ∀ r, following.length ≤ r.length → registryFound reg ⟨x, r⟩ = .ret (some (f x))) :
    decodeAll reg following xs = .ret (xs.map f) := by
  induction xs with
  | nil => rfl
  | cons x r ih =>
    have := ih fun y hy => h y (by simp [hy])
    simp only [List.map_cons, decodeAll]
    rw [h x (by simp) _ (by simp), this]
    rfl

theorem validator_field {n : Nat} {f : Bytes} (h : ValidField n f) : validatorGeneric f n = f := validator_id h

theorem not_dash (xs : List (Bytes × List (Bytes × Bytes))) (hne : xs ≠ []) :
    ¬ ((xs.map fun x => elementText x.1 x.2) = [] ∨
      ((xs.map fun x => elementText x.1 x.2).length = 1 ∧ (xs.map fun x => elementText x.1 x.2).flatten.head? = some DASH)) := by
  rintro (h | ⟨_, h⟩)
  · simp at h; exact hne h
  · cases xs with
    | nil => exact hne rfl
    | cons x r =>
      simp only [List.map_cons, List.flatten_cons, elementText] at h
      simp at h
      exact absurd h (by decide)

/-- The structured data of a message with well formed elements. -/
theorem View.elements {m : MsgImm} {fs xs : List Bytes} {o : Option Bytes} (h : View m fs xs o) {els : List (Bytes × List (Bytes × Bytes))}
    (hx : xs = els.map fun x => elementText x.1 x.2) (reg : List SDID) (f : Bytes × List (Bytes × Bytes) → SD)
    (hf : ∀ x ∈ els, ∀ following : Bytes, registryFound reg ⟨elementText x.1 x.2, following⟩ = .ret (some (f x))) :
    m.structuredData reg = .ret (els.map f) := by
  rw [h.structuredData, hx]
  by_cases he : els = []
  · subst he; rfl
  · rw [if_neg (not_dash els he)]
    have key : ∀ following : Bytes, decodeAll reg following (els.map fun x => elementText x.1 x.2) = .ret (els.map f) := by
      intro following
      clear he hx
      induction els with
      | nil => rfl
      | cons x r ih =>
        simp only [List.map_cons, decodeAll]
        rw [hf x (by simp), ih fun y hy => hf y (by simp [hy])]
        rfl
    exact key _

/-- Well formed elements, when nothing is registered. -/
theorem unregistered {els : List (Bytes × List (Bytes × Bytes))} (hw : ∀ x ∈ els, WellFormed x.1 x.2 ∧ x.2 ≠ []) :
    ∀ x ∈ els, ∀ following : Bytes, registryFound [] ⟨elementText x.1 x.2, following⟩ = .ret (some (.unknown x.1 x.2)) := by
  intro x hx f
  have := decodeAll_wellFormed f [x] (by simpa using hw x hx)
  simp only [List.map_cons, List.map_nil, decodeAll, List.flatten_nil, List.nil_append] at this
  cases h : registryFound [] ⟨elementText x.1 x.2, f⟩ with
  | ret r =>
    rw [h] at this
    cases r with
    | none => simp at this
    | some sd => simp at this; rw [this]
  | panic => rw [h] at this; simp at this
  | hang => rw [h] at this; simp at this

end Syslog5424
