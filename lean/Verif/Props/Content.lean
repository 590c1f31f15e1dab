import Verif.Spec.Content
import Verif.Props.EncoderExact
import Verif.Props.EndToEnd
/-! # C78: structured data made from Go values arrives as these values -/
namespace Syslog5424
open Spec

theorem param_map_injective {ps qs : List (Bytes × Bytes)}
    (h : (ps.map fun p => Item.param p.1 p.2) = qs.map fun p => Item.param p.1 p.2) : ps = qs := by
  induction ps generalizing qs with
  | nil => cases qs with
    | nil => rfl
    | cons => simp at h
  | cons p ps ih => cases qs with
    | nil => simp at h
    | cons q qs =>
      simp only [List.map_cons, List.cons.injEq, Item.param.injEq] at h
      rw [ih h.2, Prod.ext h.1.1 h.1.2]

theorem encodes_params {id : Bytes} {ps : List (Bytes × Bytes)} {r : Res Bytes}
    (h : Encodes id (ps.map fun p => .param p.1 p.2) r) :
    r = .ret (.ok (elementText id (ps.map fun p => (p.1, escaped p.2)))) :=
  C27_exact_unique _ _ _ _ h (.done ps)

/-- The bytes of structured data made from Go values. -/
theorem holds_marshal {v : SD} {id : Bytes} {ps : List (Bytes × Bytes)} (h : Holds v id ps) :
    v.marshal = .ret (.ok (elementText id (ps.map fun p => (p.1, escaped p.2)))) := by
  cases h with
  | struct i fields ps hn hi =>
    have := C27_exact (some i.string) fields hn
    rw [hi] at this
    exact encodes_params this
  | map i t es sorted ps ht hd hk hp hs hi =>
    obtain ⟨so, h1, h2, h3⟩ := C21_exact (some i.string) t es ht hd hk
    have : so = sorted := by
      refine List.Perm.eq_of_pairwise (le := fun a b => a.1 < b.1) ?_ h2 hs (h1.trans hp.symm)
      intro a b _ _ h1 h2
      exact absurd (List.lt_trans h1 h2) (List.lt_irrefl _)
    rw [this, hi] at h3
    exact encodes_params h3

theorem named_wellFormed {x : Bytes × List (Bytes × Bytes)} (h : Named x) :
    WellFormed x.1 (x.2.map fun p => (p.1, escaped p.2)) ∧ (x.2.map fun p => (p.1, escaped p.2)) ≠ [] := by
  refine ⟨wellFormed_of_names h.1 ?_, by simpa using h.2.1⟩
  intro p hp
  obtain ⟨q, hq, rfl⟩ := List.mem_map.mp hp
  exact ⟨h.2.2 q hq, rawValue_escaped _⟩

theorem holds_marshalsTo {sd : List SD} {xs : List (Bytes × List (Bytes × Bytes))}
    (h : Each (fun v x => Holds v x.1 x.2 ∧ Named x) sd xs) :
    MarshalsTo sd (xs.map fun x => (x.1, x.2.map fun p => (p.1, escaped p.2))) := by
  induction h with
  | nil => exact ⟨rfl, by simp⟩
  | cons hr _ ih =>
    refine ⟨?_, ?_⟩
    · simp only [List.map_cons]
      rw [holds_marshal hr.1, ih.1]
    · intro y hy
      simp only [List.map_cons, List.mem_cons] at hy
      rcases hy with rfl | hy
      · exact named_wellFormed hr.2
      · exact ih.2 y hy

theorem texts_escaped (x : Bytes × List (Bytes × Bytes)) : texts (x.1, x.2.map fun p => (p.1, escaped p.2)) = x := by
  obtain ⟨id, ps⟩ := x
  simp [texts, Function.comp_def, unescape_escaped]

/-- Two runs of name bytes followed by another byte. -/
theorem name_split {x y r s : Bytes} {c d : UInt8} (hx : ∀ b ∈ x, NameByte b) (hy : ∀ b ∈ y, NameByte b) (hc : ¬ NameByte c)
    (hd : ¬ NameByte d) (h : x ++ c :: r = y ++ d :: s) : x = y ∧ c = d ∧ r = s := by
  induction x generalizing y with
  | nil =>
    cases y with
    | nil => simpa using h
    | cons b y =>
      simp only [List.nil_append, List.cons_append, List.cons.injEq] at h
      rw [h.1] at hc
      exact absurd (hy b (by simp)) hc
  | cons a x ih =>
    cases y with
    | nil =>
      simp only [List.nil_append, List.cons_append, List.cons.injEq] at h
      rw [← h.1] at hd
      exact absurd (hx a (by simp)) hd
    | cons b y =>
      simp only [List.cons_append, List.cons.injEq] at h
      obtain ⟨e1, e2, e3⟩ := ih (fun b hb => hx b (by simp [hb])) (fun b hb => hy b (by simp [hb])) h.2
      exact ⟨by rw [h.1, e1], e2, e3⟩

theorem value_split {x y r s : Bytes} (hx : RawValue x) (hy : RawValue y)
    (h : x ++ b!"\"" ++ r = y ++ b!"\"" ++ s) : x = y ∧ r = s := by
  have e1 := nextSDValue_complete hx r
  have e2 := nextSDValue_complete hy s
  have : DQ :: (x ++ DQ :: r) = DQ :: (y ++ DQ :: s) := by
    have : x ++ DQ :: r = y ++ DQ :: s := by simpa using h
    rw [this]
  rw [this, e2] at e1
  simp only [Option.some.injEq, Prod.mk.injEq] at e1
  exact ⟨e1.1.symm, e1.2.symm⟩

theorem params_injective {ps qs : List (Bytes × Bytes)} (hp : ∀ p ∈ ps, (∀ c ∈ p.1, NameByte c) ∧ RawValue p.2)
    (hq : ∀ p ∈ qs, (∀ c ∈ p.1, NameByte c) ∧ RawValue p.2)
    (h : (ps.map fun p => b!" " ++ paramText p).flatten ++ b!"]" = (qs.map fun p => b!" " ++ paramText p).flatten ++ b!"]") :
    ps = qs := by
  induction ps generalizing qs with
  | nil =>
    cases qs with
    | nil => rfl
    | cons q qs =>
      simp only [List.map_nil, List.flatten_nil, List.nil_append, List.map_cons, List.flatten_cons, List.append_assoc,
        List.cons_append, List.cons.injEq] at h
      exact absurd h.1 (by decide)
  | cons p ps ih =>
    cases qs with
    | nil =>
      simp only [List.map_nil, List.flatten_nil, List.nil_append, List.map_cons, List.flatten_cons, List.append_assoc,
        List.cons_append, List.cons.injEq] at h
      exact absurd h.1 (by decide)
    | cons q qs =>
      obtain ⟨n, v⟩ := p
      obtain ⟨n', v'⟩ := q
      have hp0 := hp _ (List.mem_cons_self ..)
      have hq0 := hq _ (List.mem_cons_self ..)
      have h1 : n ++ 61 :: (34 :: (v ++ b!"\"" ++ ((ps.map fun p => b!" " ++ paramText p).flatten ++ b!"]"))) =
          n' ++ 61 :: (34 :: (v' ++ b!"\"" ++ ((qs.map fun p => b!" " ++ paramText p).flatten ++ b!"]"))) := by
        simpa [paramText] using h
      obtain ⟨rfl, _, h2⟩ := name_split hp0.1 hq0.1 (by decide) (by decide) h1
      simp only [List.cons.injEq, true_and] at h2
      obtain ⟨rfl, h3⟩ := value_split hp0.2 hq0.2 h2
      rw [ih (fun p hp' => hp p (by simp [hp'])) (fun p hp' => hq p (by simp [hp'])) h3]

theorem elementText_injective {id id' : Bytes} {ps qs : List (Bytes × Bytes)} (hi : ∀ c ∈ id, NameByte c) (hi' : ∀ c ∈ id', NameByte c)
    (hp : ∀ p ∈ ps, (∀ c ∈ p.1, NameByte c) ∧ RawValue p.2) (hq : ∀ p ∈ qs, (∀ c ∈ p.1, NameByte c) ∧ RawValue p.2)
    (h : elementText id ps = elementText id' qs) : id = id' ∧ ps = qs := by
  have first : ∀ l : List (Bytes × Bytes), ∃ c r, (l.map fun p => b!" " ++ paramText p).flatten ++ b!"]" = c :: r ∧ ¬ NameByte c := by
    intro l
    cases l with
    | nil => exact ⟨93, [], rfl, by decide⟩
    | cons p l => exact ⟨32, paramText p ++ ((l.map fun p => b!" " ++ paramText p).flatten ++ b!"]"), by simp, by decide⟩
  have h1 : id ++ ((ps.map fun p => b!" " ++ paramText p).flatten ++ b!"]") = id' ++ ((qs.map fun p => b!" " ++ paramText p).flatten ++ b!"]") := by
    simpa [elementText] using h
  obtain ⟨c, r, e1, hc⟩ := first ps
  obtain ⟨d, s, e2, hd⟩ := first qs
  have h2 := h1
  rw [e1, e2] at h2
  obtain ⟨rfl, _, _⟩ := name_split hi hi' hc hd h2
  exact ⟨rfl, params_injective hp hq (List.append_cancel_left h1)⟩

/-- **C78.** Structured data of different content has different bytes. -/
theorem C78_injective (v w : SD) (x y : Bytes × List (Bytes × Bytes)) (hv : Holds v x.1 x.2) (hw : Holds w y.1 y.2) (hx : Named x) (hy : Named y)
    (h : v.marshal = w.marshal) : x = y := by
  rw [holds_marshal hv, holds_marshal hw] at h
  simp only [Out.ret.injEq, Except.ok.injEq] at h
  have a := (named_wellFormed hx).1
  have b := (named_wellFormed hy).1
  obtain ⟨e1, e2⟩ := elementText_injective a.1.2 b.1.2 a.2.1 b.2.1 h
  have e3 := texts_escaped x
  rw [e1, e2, texts_escaped y] at e3
  exact e3.symm

/-- Elements whose bytes say what they contain. -/
def Clear (x : Bytes × List (Bytes × Bytes)) : Prop :=
  (∀ c ∈ x.1, NameByte c) ∧ ∀ p ∈ x.2, (∀ c ∈ p.1, NameByte c) ∧ RawValue p.2

theorem Spec.WellFormed.clear {x : Bytes × List (Bytes × Bytes)} (h : WellFormed x.1 x.2) : Clear x := ⟨h.1.2, h.2.1⟩

/-- What `StructuredData` returns without registered identifiers. -/
theorem sdItems_unknown (buf : Slice) (b : Int) (is : List Int) (l : List SD) (h : MsgImm.sdItems [] buf b is = .ret l) :
    ∃ els : List (Bytes × List (Bytes × Bytes)), l = els.map (fun x => .unknown x.1 x.2) ∧ ∀ x ∈ els, WellFormed x.1 x.2 ∧ x.2 ≠ [] := by
  induction is generalizing b l with
  | nil =>
    simp only [MsgImm.sdItems, Out.ret.injEq] at h
    exact ⟨[], h.symm, by simp⟩
  | cons i is ih =>
    simp only [MsgImm.sdItems] at h
    cases h1 : buf.sub b i with
    | panic => rw [h1] at h; simp at h
    | hang => rw [h1] at h; simp at h
    | ret d =>
      rw [h1, Out.ret_bind] at h
      cases h2 : registryFound [] d with
      | panic => rw [h2] at h; simp at h
      | hang => rw [h2] at h; simp at h
      | ret o =>
        rw [h2, Out.ret_bind] at h
        cases h3 : MsgImm.sdItems [] buf i is with
        | panic => rw [h3] at h; simp at h
        | hang => rw [h3] at h; simp at h
        | ret r =>
          rw [h3, Out.ret_bind] at h
          obtain ⟨els, rfl, hels⟩ := ih i r h3
          cases o with
          | none => exact ⟨els, by simpa using h.symm, hels⟩
          | some sd =>
            obtain ⟨id, l', rfl, _, g1, g0, g2, g3⟩ := unknownFound_sound h2
            refine ⟨(id, l'.map (·.2)) :: els, by simpa using h.symm, ?_⟩
            intro x hx
            rcases List.mem_cons.mp hx with rfl | hx
            · refine ⟨⟨g1, ?_, g3⟩, by simpa using g0⟩
              intro p hp
              obtain ⟨q, hq, rfl⟩ := List.mem_map.mp hp
              exact g2 q hq
            · exact hels x hx

theorem structuredData_unknown (m : MsgImm) (l : List SD) (h : m.structuredData [] = .ret l) :
    ∃ els : List (Bytes × List (Bytes × Bytes)), l = els.map (fun x => .unknown x.1 x.2) ∧ ∀ x ∈ els, WellFormed x.1 x.2 ∧ x.2 ≠ [] := by
  unfold MsgImm.structuredData at h
  split at h
  · simp at h
  split at h
  · simp only [Out.ret.injEq] at h
    exact ⟨[], h.symm, by simp⟩
  cases h1 : m.idx 5 with
  | panic => rw [h1] at h; simp at h
  | hang => rw [h1] at h; simp at h
  | ret i5 =>
    rw [h1, Out.ret_bind] at h
    split at h
    · cases h2 : m.buffer.at_ (i5 + 1) with
      | panic => rw [h2] at h; simp at h
      | hang => rw [h2] at h; simp at h
      | ret c =>
        rw [h2, Out.ret_bind] at h
        split at h
        · exact ⟨[], by simpa using h.symm, by simp⟩
        · exact sdItems_unknown _ _ _ _ h
    · exact sdItems_unknown _ _ _ _ h

theorem elements_injective {els xs : List (Bytes × List (Bytes × Bytes))} (h1 : ∀ x ∈ els, Clear x) (h2 : ∀ x ∈ xs, Clear x)
    (h : els.map (fun x => elementText x.1 x.2) = xs.map (fun x => elementText x.1 x.2)) : els = xs := by
  induction els generalizing xs with
  | nil => cases xs with
    | nil => rfl
    | cons => simp at h
  | cons a els ih => cases xs with
    | nil => simp at h
    | cons b xs =>
      simp only [List.map_cons, List.cons.injEq] at h
      have ha := h1 a (by simp)
      have hb := h2 b (by simp)
      obtain ⟨e1, e2⟩ := elementText_injective ha.1 hb.1 ha.2 hb.2 h.1
      rw [ih (fun x hx => h1 x (by simp [hx])) (fun x hx => h2 x (by simp [hx])) h.2, Prod.ext e1 e2]

/-- **C78.** Whenever a message was received (in the sense of C53, C61, C72, C73, C74...: no error, the fields that were
sent, structured data with the same bytes), the structured data that the receiving program gets is what the sending one
put in, as structs or maps: the same identifiers, names and values, in the same order, and no others. -/
theorem C78_received (m : Message) (d : Tok.Delivered) (h : IsReceived m d) (xs : List (Bytes × List (Bytes × Bytes)))
    (hsd : Each (fun v x => Holds v x.1 x.2 ∧ Named x) m.sd xs) :
    ∃ els : List (Bytes × List (Bytes × Bytes)), d.msg.structuredData [] = .ret (els.map fun x => .unknown x.1 x.2) ∧ els.map texts = xs := by
  obtain ⟨l, hl, hm⟩ := h.structuredData
  obtain ⟨els, rfl, hels⟩ := structuredData_unknown _ _ hl
  have hM := holds_marshalsTo hsd
  refine ⟨els, hl, ?_⟩
  have e : els = xs.map fun x => (x.1, x.2.map fun p => (p.1, escaped p.2)) := by
    refine elements_injective (fun x hx => (hels x hx).1.clear) (fun x hx => (hM.2 x hx).1.clear) ?_
    · rw [hM.1, List.map_map] at hm
      have inj : ∀ l r : List Bytes, l.map (fun b => (.ret (.ok b) : Res Bytes)) = r.map (fun b => (.ret (.ok b) : Res Bytes)) → l = r := by
        intro l
        induction l with
        | nil => intro r h; cases r with
          | nil => rfl
          | cons => simp at h
        | cons a l ih => intro r h; cases r with
          | nil => simp at h
          | cons b r =>
            simp only [List.map_cons, List.cons.injEq, Out.ret.injEq, Except.ok.injEq] at h
            rw [h.1, ih r h.2]
      apply inj
      rw [List.map_map, List.map_map]
      rw [← Function.comp_def (fun x : Bytes × List (Bytes × Bytes) => (.ret (.ok (elementText x.1 x.2)) : Res Bytes))] at hm
      refine Eq.trans ?_ hm
      apply List.map_congr_left
      intro x _
      show _ = (Out.ret (Except.ok (unknownMarshal x.1 x.2)) : Res Bytes)
      rw [unknownMarshal_eq]; rfl
  rw [e, List.map_map]
  have : (texts ∘ fun x : Bytes × List (Bytes × Bytes) => (x.1, x.2.map fun p => (p.1, escaped p.2))) = id := by
    funext x; exact texts_escaped x
  rw [this, List.map_id]

/-- **C78.** What one application puts into the structured data of a message, as structs or as maps, is what the other one
gets: whatever the values of the fields (quotes, brackets, backslashes, any byte), as long as the identifiers and the
names are names of RFC 5424, every element has at least one value and the text has no `]` (but after a backslash), the message that is read from
the frame, whatever follows it, has these elements, with these identifiers, these names and these values, in this order,
and no others. -/
theorem C78_arrives_partial (m : Message) (hg : GoodMsg m) (hts : m.timestamp.Valid) (xs : List (Bytes × List (Bytes × Bytes)))
    (hsd : Each (fun v x => Holds v x.1 x.2 ∧ Named x) m.sd xs) (htext : m.sd ≠ [] → FreeText m.message)
    (suffix spare : Bytes) (atEOF : Bool) (n : Nat) :
    ∃ b, m.marshal = .ret (.ok b) ∧ (b.length < 2 ^ 62 →
      ∃ p, parse (some ⟨Transport.rfc5425.encode b ++ suffix, spare⟩) (some .rfc5425) atEOF = .ret (p, some ⟨suffix, spare⟩, none) ∧
        IsReceived m ⟨n, p, none⟩ ∧
        ∃ els : List (Bytes × List (Bytes × Bytes)), p.structuredData [] = .ret (els.map fun x => .unknown x.1 x.2) ∧ els.map texts = xs) := by
  have hI : Intact m := ⟨hg, hts, ⟨_, holds_marshalsTo hsd⟩, htext⟩
  obtain ⟨b, els, hb, hels, hf, h20⟩ := transmissible_frame hI
  refine ⟨b, hb, fun hlen => ?_⟩
  obtain ⟨p, e, g1, g2⟩ := parse_5425_conveys b suffix spare atEOF hlen (by simp only [List.length_append]; omega)
  have := (g2.message hf).1
  subst this
  have hr := conveys_isReceived hI hb (d := ⟨n, p, none⟩) g2
  exact ⟨p, g1, hr, C78_received m _ hr xs hsd⟩

/-! ## The names -/

theorem valueItems_name (exported : Bool) (name : Bytes) (t : GoType) (v : GoVal t) (n x : Bytes)
    (h : Item.param n x ∈ valueItems exported name t v) : n = name := by
  induction t with
  | marshaler =>
    simp only [valueItems] at h
    split at h
    · simp at h
    · split at h
      · split at h <;> simp at h
        exact h.1
      · simp at h
  | scalar b =>
    simp only [valueItems] at h
    split at h
    · simp only [List.mem_singleton] at h
      cases h
      rfl
    · simp at h
  | ptr t ih => cases v with
    | none => simp [valueItems] at h
    | some w => exact ih w h
  | iface => simp [valueItems] at h
  | slice t ih => cases v with
    | none => simp [valueItems] at h
    | some l =>
      simp only [valueItems] at h
      split at h
      · simp at h
      · obtain ⟨w, _, hw⟩ := List.mem_flatMap.mp h
        exact ih w hw
  | array t ih => simp [valueItems] at h
  | unsupported => simp [valueItems] at h

/-- Names of structured data made from Go values are not empty. -/
theorem holds_names {v : SD} {id : Bytes} {ps : List (Bytes × Bytes)} (h : Holds v id ps) : ∀ p ∈ ps, p.1 ≠ [] := by
  intro p hp
  cases h with
  | struct i fields ps hn hi =>
    have : Item.param p.1 p.2 ∈ fields.flatMap fieldItems := by rw [hi]; exact List.mem_map.mpr ⟨p, hp, rfl⟩
    obtain ⟨f, hf, hf2⟩ := List.mem_flatMap.mp this
    unfold fieldItems at hf2
    split at hf2
    · simp at hf2
    split at hf2
    · split at hf2 <;> simp at hf2
    rw [valueItems_name _ _ _ _ _ _ hf2]
    unfold paramName
    split
    · next h => exact h.1
    · exact hn f hf
  | map i t es sorted ps ht hd hk hperm hs hi =>
    have : Item.param p.1 p.2 ∈ sorted.flatMap (fun e => valueItems true e.1 t e.2) := by rw [hi]; exact List.mem_map.mpr ⟨p, hp, rfl⟩
    obtain ⟨e, he, he2⟩ := List.mem_flatMap.mp this
    rw [valueItems_name _ _ _ _ _ _ he2]
    exact hk e (hperm.mem_iff.mp he)

/-- **C78.** Exactly the names of RFC 5424 come back: what was encoded is decoded to the same identifier, names and values
if and only if the identifier and all names are made of bytes that names may have, and there is a value. -/
theorem C78_names (v : SD) (id : Bytes) (ps : List (Bytes × Bytes)) (h : Holds v id ps) (spare : Bytes) :
    ∃ b, v.marshal = .ret (.ok b) ∧
      ((∃ els, unknownFound ⟨b, spare⟩ = .ret (some (.unknown els.1 els.2)) ∧ texts els = (id, ps)) ↔ Named (id, ps)) := by
  refine ⟨_, holds_marshal h, ?_, ?_⟩
  · rintro ⟨⟨id', ps'⟩, he, ht⟩
    obtain ⟨id2, l, h1, _, h3, h4, h5, _⟩ := unknownFound_sound he
    simp only [SD.unknown.injEq] at h1
    obtain ⟨rfl, rfl⟩ := h1
    simp only [texts, Prod.mk.injEq] at ht
    obtain ⟨rfl, rfl⟩ := ht
    refine ⟨h3, by simpa using h4, ?_⟩
    intro p hp
    refine ⟨holds_names h p hp, ?_⟩
    simp only [List.mem_map] at hp
    obtain ⟨a, ⟨q, hq, rfl⟩, rfl⟩ := hp
    exact (h5 q hq).1
  · intro hn
    obtain ⟨hw, hne⟩ := named_wellFormed hn
    obtain ⟨b, _, hb, hd⟩ := C22_encode_decode_partial id (ps.map fun p => (p.1, escaped p.2)) hw hne spare
    subst hb
    exact ⟨(id, ps.map fun p => (p.1, escaped p.2)), hd, texts_escaped (id, ps)⟩

/-- **C78 fails** for the keys of a map, which are written as they are: with a key that ends the element and begins another
one, one entry has the bytes of two elements. An application that uses keys it was given lets whoever gives them add
elements, or change the identifier under which a value is sent. -/
theorem C78_key_violated (i : SDIDLight) (n1 v1 id2 n2 v : Bytes) :
    sdListMarshal [genericOfMap i (.scalar true) (some [(n1 ++ b!"=\"" ++ escaped v1 ++ b!"\"][" ++ id2 ++ b!" " ++ n2, v)])] =
      sdListMarshal [.unknown i.string [(n1, escaped v1)], .unknown id2 [(n2, escaped v)]] := by
  have hk : n1 ++ b!"=\"" ++ escaped v1 ++ b!"\"][" ++ id2 ++ b!" " ++ n2 ≠ [] := by simp
  have h1 := C20_marshal_map (some i.string) _ v hk
  have h2 : (genericOfMap i (.scalar true) (some [(n1 ++ b!"=\"" ++ escaped v1 ++ b!"\"][" ++ id2 ++ b!" " ++ n2, v)])).marshal =
      .ret (.ok (elementText i.string [(n1 ++ b!"=\"" ++ escaped v1 ++ b!"\"][" ++ id2 ++ b!" " ++ n2, escaped v)])) := by
    have := C20_encoded_form true _ v hk
    simp only [genericOfMap, SD.marshal, encodeRoot, encoderBuilds, if_true, sortKeys, insertKey, encodeAll]
    rw [this]
    simp [elementText, headerWrite, LBRK, RBRK]
  simp only [sdListMarshal, encodeAll, List.length_cons, List.length_nil, h2]
  simp [SD.marshal, unknownMarshal_eq, elementText, paramText]

/-- **C78 fails**, seen by the receiver: the message with this one entry is received with the two elements. -/
theorem C78_forged_violated (m : Message) (hg : GoodMsg m) (hts : m.timestamp.Valid) (i : SDIDLight) (n1 v1 id2 n2 v : Bytes)
    (hi : IsName i.string) (hn1 : IsName n1) (hi2 : IsName id2) (hn2 : IsName n2)
    (hsd : m.sd = [genericOfMap i (.scalar true) (some [(n1 ++ b!"=\"" ++ escaped v1 ++ b!"\"][" ++ id2 ++ b!" " ++ n2, v)])])
    (htext : FreeText m.message) (suffix spare : Bytes) (atEOF : Bool) :
    ∃ b, m.marshal = .ret (.ok b) ∧ (b.length < 2 ^ 62 →
      ∃ p, parse (some ⟨Transport.rfc5425.encode b ++ suffix, spare⟩) (some .rfc5425) atEOF = .ret (p, some ⟨suffix, spare⟩, none) ∧
        p.structuredData [] = .ret [.unknown i.string [(n1, escaped v1)], .unknown id2 [(n2, escaped v)]]) := by
  have hM : MarshalsTo [.unknown i.string [(n1, escaped v1)], .unknown id2 [(n2, escaped v)]]
      [(i.string, [(n1, escaped v1)]), (id2, [(n2, escaped v)])] := by
    refine ⟨by simp [SD.marshal, unknownMarshal_eq], ?_⟩
    intro x hx
    simp only [List.mem_cons, List.not_mem_nil, or_false] at hx
    rcases hx with rfl | rfl
    · exact ⟨wellFormed_of_names hi (by simpa using ⟨hn1, rawValue_escaped _⟩), by simp⟩
    · exact ⟨wellFormed_of_names hi2 (by simpa using ⟨hn2, rawValue_escaped _⟩), by simp⟩
  have hI : Intact { m with sd := [.unknown i.string [(n1, escaped v1)], .unknown id2 [(n2, escaped v)]] } :=
    ⟨⟨hg.prio, hg.host, hg.app, hg.pid, hg.mid⟩, hts, ⟨_, hM⟩, fun _ => htext⟩
  obtain ⟨b, els, hb, hels, hf, h20⟩ := transmissible_frame hI
  have hb' : m.marshal = .ret (.ok b) := by
    rw [← hb]
    unfold Message.marshal
    simp only [hsd, C78_key_violated]
  refine ⟨b, hb', fun hlen => ?_⟩
  obtain ⟨p, e, g1, g2⟩ := parse_5425_conveys b suffix spare atEOF hlen (by simp only [List.length_append]; omega)
  have := (g2.message hf).1
  subst this
  refine ⟨p, g1, ?_⟩
  have := g2.elements hf rfl [] _ (unregistered hels.2)
  rw [this]
  have clear : ∀ {sd : List SD} {xs : List (Bytes × List (Bytes × Bytes))}, MarshalsTo sd xs → ∀ x ∈ xs, Clear x := by
    intro sd xs h x hx
    have := h.2 x hx
    exact this.1.clear
  have e : els = [(i.string, [(n1, escaped v1)]), (id2, [(n2, escaped v)])] := by
    apply elements_injective (clear hels) (clear hM)
    have h3 := hels.1
    rw [hM.1] at h3
    have := congrArg (List.map fun r : Res Bytes => match r with | .ret (.ok b) => b | _ => []) h3
    simpa [Function.comp_def] using this.symm
  rw [e]; rfl

/-- What a struct with one tagged field contains. -/
theorem holds_tag (i : SDIDLight) (name tag v : Bytes) (hname : name ≠ []) (hd : tag ≠ b!"-") (htag : TagName tag)
    (hv : v ≠ []) : Holds (genericOfStruct i [⟨name, tag, true, .scalar true, v⟩]) i.string [(tag, v)] := by
  have hnc : (44 : UInt8) ∉ tag := htag.no_comma
  have ht : tagName tag = tag := by
    unfold tagName
    have : ∀ l : Bytes, (44 : UInt8) ∉ l → l.takeWhile (fun c => decide (c ≠ 44)) = l := by
      intro l
      induction l with
      | nil => intro _; rfl
      | cons c l ih =>
        intro h
        simp only [List.mem_cons, not_or] at h
        rw [List.takeWhile_cons, if_pos (by simpa using Ne.symm h.1), ih h.2]
    exact this tag hnc
  have hm : ¬ HasMandatory tag := by
    rintro ⟨pre, post, h, _⟩
    exact hnc (by rw [h]; simp)
  refine .struct i _ _ (by simpa using hname) ?_
  simp only [List.flatMap_cons, List.flatMap_nil, List.append_nil, fieldItems]
  rw [if_neg hd, if_neg (fun h : Missing (.scalar true) v => hv h)]
  have : paramName ⟨name, tag, true, .scalar true, v⟩ = tag := by
      unfold paramName
      simp only [ht]
      exact if_pos htag
  rw [this]; rfl

/-- **C78 fails** for the tags of a struct, among which the package accepts names with a space, `=` or `]`: the field is
encoded, but what is decoded is not this field. -/
theorem C78_tag_violated (i : SDIDLight) (name tag v : Bytes) (hname : name ≠ []) (hd : tag ≠ b!"-")
    (htag : TagName tag) (hbad : (32 : UInt8) ∈ tag ∨ (61 : UInt8) ∈ tag ∨ (93 : UInt8) ∈ tag)
    (hv : v ≠ []) (spare : Bytes) :
    ∃ b, (genericOfStruct i [⟨name, tag, true, .scalar true, v⟩]).marshal = .ret (.ok b) ∧
      b = elementText i.string [(tag, escaped v)] ∧
      ¬ ∃ els, unknownFound ⟨b, spare⟩ = .ret (some (.unknown els.1 els.2)) ∧ texts els = (i.string, [(tag, v)]) := by
  have hH := holds_tag i name tag v hname hd htag hv
  obtain ⟨b, hb, hiff⟩ := C78_names _ _ _ hH spare
  have hb2 := holds_marshal hH
  rw [hb] at hb2
  simp only [Out.ret.injEq, Except.ok.injEq] at hb2
  refine ⟨b, hb, hb2, fun h => ?_⟩
  have hn := (hiff.mp h).2.2 (tag, v) (by simp)
  rcases hbad with h | h | h
  · exact absurd (hn.2 _ h) (by decide)
  · exact absurd (hn.2 _ h) (by decide)
  · exact absurd (hn.2 _ h) (by decide)

/-- Names with a space, and in French (U+00E9, two bytes). -/
example : TagName b!"a b" ∧ TagName (b!"dur" ++ [0xC3, 0xA9] ++ b!"e") ∧ ¬ TagName [0xC3] ∧ ¬ TagName b!"a,b" := by
  decide +kernel

/-! ## The hypotheses are met -/

/-- A struct with three fields of which one is repeated, and a map. -/
def contentSD : List SD :=
  [genericOfStruct ⟨b!"x@1", false, 1⟩ [⟨b!"A", b!"a", true, .scalar true, b!"q\"]\\"⟩, ⟨b!"B", b!"", true, .slice (.scalar false), some [b!"1", b!"2"]⟩],
   genericOfMap ⟨b!"y@2", false, 2⟩ (.scalar true) (some [(b!"z", b!"last"), (b!"k", b!"")])]

example : Each (fun v x => Holds v x.1 x.2 ∧ Named x) contentSD
    [(b!"x@1", [(b!"a", b!"q\"]\\"), (b!"B", b!"1"), (b!"B", b!"2")]), (b!"y@2", [(b!"k", b!""), (b!"z", b!"last")])] := by
  refine .cons ⟨.struct _ _ _ (by decide +kernel) ?_, by unfold Named; decide +kernel⟩ (.cons ⟨.map _ (.scalar true) _ [((b!"k" : Bytes), (b!"" : Bytes)), (b!"z", (b!"last" : Bytes))] _ (by simp) (by decide +kernel) (by decide +kernel) ?_
    (by decide +kernel) rfl, by unfold Named; decide +kernel⟩ .nil)
  · have h1 : fieldItems ⟨b!"A", b!"a", true, .scalar true, b!"q\"]\\"⟩ = [.param b!"a" b!"q\"]\\"] := by
      unfold fieldItems
      rw [if_neg (by decide), if_neg (fun h : Missing (.scalar true) (b!"q\"]\\" : Bytes) => by cases h)]
      have : paramName ⟨b!"A", b!"a", true, .scalar true, b!"q\"]\\"⟩ = b!"a" := by decide +kernel
      rw [this]; rfl
    have h2 : fieldItems ⟨b!"B", b!"", true, .slice (.scalar false), some [b!"1", b!"2"]⟩ = [.param b!"B" b!"1", .param b!"B" b!"2"] := by
      unfold fieldItems
      rw [if_neg (by decide), if_neg (fun h => by rcases h with h | h <;> cases h)]
      rfl
    rw [List.flatMap_cons, List.flatMap_cons, h1, h2]; rfl
  · exact List.Perm.swap ..

example : sdListMarshal contentSD = .ret (.ok b!"[x@1 a=\"q\\\"\\]\\\\\" B=\"1\" B=\"2\"][y@2 k=\"\" z=\"last\"]") := by decide +kernel

/-- A forged element. -/
example : sdListMarshal [genericOfMap ⟨b!"x@1", false, 1⟩ (.scalar true) (some [(b!"a=\"\"][origin software", b!"sshd")])] =
    .ret (.ok b!"[x@1 a=\"\"][origin software=\"sshd\"]") := by decide +kernel

end Syslog5424
