import Verif.Spec.EncoderExact
import Verif.Props.Encoder
/-! # C21 and C27: the result of the struct and map encoders, for every value -/
namespace Syslog5424
open Spec

/-- The bytes written by a sequence of items. -/
def runItems : List Item → Res Bytes
  | [] => .ret (.ok [])
  | .param n v :: r => Res.bind (runItems r) fun y => .ret (.ok ((b!" " ++ paramText (n, escaped v)) ++ y))
  | .fails e :: _ => .ret (.error e)
  | .crashes :: _ => .panic
  | .stuck :: _ => .hang

theorem Res.bind_assoc' {α β γ : Type} (x : Res α) (f : α → Res β) (g : β → Res γ) :
    Res.bind (Res.bind x f) g = Res.bind x fun a => Res.bind (f a) g := by
  cases x with
  | ret r => cases r <;> rfl
  | panic => rfl
  | hang => rfl

theorem runItems_append (a b : List Item) :
    runItems (a ++ b) = Res.bind (runItems a) fun x => Res.bind (runItems b) fun y => .ret (.ok (x ++ y)) := by
  induction a with
  | nil =>
    simp only [List.nil_append, runItems, Res.bind_ok]
    cases runItems b with
    | ret r => cases r <;> rfl
    | panic => rfl
    | hang => rfl
  | cons i r ih =>
    cases i with
    | param n v =>
      simp only [List.cons_append, runItems, ih, Res.bind_assoc', Res.bind_ok, List.append_assoc]
    | fails e => rfl
    | crashes => rfl
    | stuck => rfl

theorem encodeAll_runItems {α : Type} {f : α → Res Bytes} {g : α → List Item} {l : List α}
    (h : ∀ a ∈ l, f a = runItems (g a)) : encodeAll f l = runItems (l.flatMap g) := by
  induction l with
  | nil => rfl
  | cons a r ih =>
    rw [List.flatMap_cons, runItems_append, encodeAll, h a (by simp), ih (fun x hx => h x (by simp [hx]))]

theorem prefixedWrite_param {n : Bytes} (h : n ≠ []) (v : Bytes) :
    prefixedWrite n v = b!" " ++ paramText (n, escaped v) := by
  unfold prefixedWrite
  rw [if_neg (by simpa using h)]
  rw [escape_eq]
  simp [paramText, SP, EQC, DQ]

theorem encodeValue_items {name : Bytes} (hn : name ≠ []) (exported : Bool) (t : GoType) (v : GoVal t) :
    encodeValue (!exported) t v name = runItems (valueItems exported name t v) := by
  induction t with
  | marshaler =>
    unfold encodeValue valueItems
    split
    · rfl
    · cases exported with
      | false => rfl
      | true =>
        simp only [Bool.not_true, Bool.false_eq_true, if_false, if_true]
        split <;> simp_all [runItems, prefixedWrite_param]
  | scalar b =>
    unfold encodeValue valueItems
    cases exported with
    | false => rfl
    | true => simp only [Bool.not_true, if_false, if_true, Bool.false_eq_true, runItems, Res.bind_ok, List.append_nil]; exact congrArg (fun x => Out.ret (Except.ok x)) (prefixedWrite_param hn v)
  | ptr t ih =>
    unfold encodeValue valueItems
    cases (v : Option (GoVal t)) with
    | none => rfl
    | some w => exact ih w
  | iface => rfl
  | slice t ih =>
    unfold encodeValue valueItems
    cases (v : Option (List (GoVal t))) with
    | none => rfl
    | some l =>
      simp only
      by_cases ht : t = .iface
      · subst ht; rfl
      · rw [if_neg ht, if_pos (by cases t <;> simp_all [encoderBuilds])]
        exact encodeAll_runItems fun w _ => ih w
  | array t ih => rfl
  | unsupported => rfl

theorem encodeField_items {f : GoField} (hn : f.name ≠ []) : encodeField f = runItems (fieldItems f) := by
  by_cases htag : f.tag = b!"-"
  · have : getName f = ([], false) := by unfold getName; rw [if_pos htag]
    unfold encodeField fieldItems
    rw [this, if_pos htag]
    simp [runItems]
  · obtain ⟨h1, h2⟩ := getName_eq f htag
    rcases hg : getName f with ⟨nm, md⟩
    rw [hg] at h1 h2
    simp only at h1 h2
    subst h1
    have hne := paramName_ne hn
    have hz : ((paramName f).length == 0) = false := by simpa using hne
    unfold encodeField fieldItems
    rw [hg, if_neg htag]
    simp only [hz, Bool.or_false]
    by_cases hemp : isEmptyValue f.type f.val = true
    · rw [if_pos hemp, if_pos ((missing_iff _ _).mp hemp)]
      by_cases hm : HasMandatory f.tag
      · rw [if_pos hm, if_pos (h2.mpr hm)]; rfl
      · rw [if_neg hm, if_neg (fun hc => hm (h2.mp hc))]; rfl
    · rw [if_neg hemp, if_neg (fun hc => hemp ((missing_iff _ _).mpr hc))]
      by_cases hb : encoderBuilds f.type = true
      · rw [if_pos hb, encodeValue_items hne]
      · rw [if_neg hb]
        obtain ⟨n, tg, ex, t, v⟩ := f
        cases t <;> simp_all [encoderBuilds]
        rfl

theorem runItems_encodes (id : Bytes) (is : List Item) :
    Encodes id is (Res.bind (runItems is) fun body => .ret (.ok (b!"[" ++ id ++ body ++ b!"]"))) := by
  have key : ∀ (is : List Item) (ps : List (Bytes × Bytes)),
      Encodes id ((ps.map fun p => .param p.1 p.2) ++ is)
        (Res.bind (runItems is) fun body => .ret (.ok (b!"[" ++ id ++
          ((ps.map fun p => b!" " ++ paramText (p.1, escaped p.2)).flatten ++ body) ++ b!"]"))) := by
    intro is
    induction is with
    | nil =>
      intro ps
      have := Encodes.done (id := id) ps
      simpa [runItems, elementText, Function.comp_def] using this
    | cons i r ih =>
      intro ps
      cases i with
      | param n v =>
        have := ih (ps ++ [(n, v)])
        simp only [runItems, Res.bind_assoc', Res.bind_ok]
        simpa using this
      | fails e => exact Encodes.fails ps e r
      | crashes => exact Encodes.crashes ps r
      | stuck => exact Encodes.stuck ps r
  simpa using key is []

/-- C27, for every struct value: the items of the fields, in declaration order, decide; the first that is not a parameter
makes the encoding fail or crash, otherwise the element has exactly these parameters. The only crashes are the items
`crashes` of the specification: a missing mandatory field, an interface type, an unexported field, a crash of the user's
own `Marshal5424`. The field names of Go are never empty. -/
theorem C27_exact (header : Option Bytes) (fields : List GoField) (h : ∀ f ∈ fields, f.name ≠ []) :
    Encodes (header.getD []) (fields.flatMap fieldItems) (encodeRoot (.struct header fields)) := by
  simp only [encodeRoot]
  rw [encodeAll_runItems (fun f hf => encodeField_items (h f hf))]
  exact runItems_encodes _ _

/-- C21, for every map value with non-empty keys: the items of the values, by increasing key, decide. -/
theorem C21_exact (header : Option Bytes) (t : GoType) (es : List (Bytes × GoVal t)) (ht : t ≠ .iface)
    (hn : (es.map (·.1)).Nodup) (hk : ∀ e ∈ es, e.1 ≠ []) :
    ∃ sorted : List (Bytes × GoVal t), sorted.Perm es ∧ sorted.Pairwise (fun a b => a.1 < b.1) ∧
      Encodes (header.getD []) (sorted.flatMap fun e => valueItems true e.1 t e.2)
        (encodeRoot (.map header t (some es))) := by
  refine ⟨sortKeys es, sortKeys_perm es, sortKeys_strict es hn, ?_⟩
  simp only [encodeRoot]
  rw [if_pos (by cases t <;> simp_all [encoderBuilds])]
  rw [encodeAll_runItems (g := fun e => valueItems true e.1 t e.2) (fun e he => by
    exact encodeValue_items (hk e ((sortKeys_perm es).mem_iff.mp he)) true t e.2)]
  exact runItems_encodes _ _

/-- The specification is functional: a value has one result. -/
theorem C27_exact_unique (id : Bytes) (is : List Item) (r r' : Res Bytes) (h : Encodes id is r) (h' : Encodes id is r') :
    r = r' := by
  have key : ∀ {r}, Encodes id is r → r = Res.bind (runItems is) fun body => .ret (.ok (b!"[" ++ id ++ body ++ b!"]")) := by
    intro r h
    have pre : ∀ (ps : List (Bytes × Bytes)) (rest : List Item),
        runItems ((ps.map fun p => Item.param p.1 p.2) ++ rest) = Res.bind (runItems rest) fun y =>
          .ret (.ok ((ps.map fun p => b!" " ++ paramText (p.1, escaped p.2)).flatten ++ y)) := by
      intro ps
      induction ps with
      | nil => intro rest; simp only [List.map_nil, List.nil_append, List.flatten_nil]; cases runItems rest with
        | ret r => cases r <;> rfl
        | panic => rfl
        | hang => rfl
      | cons p ps ih => intro rest; simp [runItems, ih, Res.bind_assoc']
    cases h with
    | done ps =>
      have := pre ps []
      rw [List.append_nil] at this
      rw [this]; simp [runItems, elementText, Function.comp_def]
    | fails ps e rest => rw [pre]; rfl
    | crashes ps rest => rw [pre]; rfl
    | stuck ps rest => rw [pre]; rfl
  rw [key h, key h']

example : encodeRoot (.struct (some b!"x@1") exampleFields) =
    .ret (.ok b!"[x@1 name=\"a\\]b\" Ptr=\"\" l=\"1\" l=\"2\"]") := by decide +kernel
example : encodeRoot (.struct none [⟨b!"A", b!"", true, .scalar true, b!"v"⟩, ⟨b!"B", b!"", true, .unsupported, false⟩,
    ⟨b!"C", b!",mandatory", true, .scalar true, b!""⟩]) = .ret (.error .unsupportedType) := by with_unfolding_all rfl

end Syslog5424
