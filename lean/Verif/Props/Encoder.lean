import Verif.Lemmas.Encoder
import Verif.Model.Message
/-! # Properties C21, C25, C27: encoding of structured data -/
namespace Syslog5424
open Spec

/-! ## C21 -/

/-- C21: the encoding of a map is the same for every iteration order (two orders of the same entries,
whose keys are distinct). -/
theorem C21_order_independent (header : Option Bytes) (t : GoType) (es es' : List (Bytes × GoVal t))
    (hp : es.Perm es') (hn : (es.map (·.1)).Nodup) :
    encodeRoot (.map header t (some es)) = encodeRoot (.map header t (some es')) ∧
    marshalSD (.map header t (some es)) = marshalSD (.map header t (some es')) := by
  have : encodeRoot (.map header t (some es)) = encodeRoot (.map header t (some es')) := by
    simp only [encodeRoot, sortKeys_eq_of_perm hp hn]
  exact ⟨this, by simp only [marshalSD, this]⟩

/-- C21: a map of scalars, pointers or lists with non-empty keys is encoded as one element whose
parameters are those of the map, in strictly increasing (bytewise) key order. -/
theorem C21_increasing (header : Option Bytes) (t : GoType) (ht : Plain t) (es : List (Bytes × GoVal t))
    (hn : (es.map (·.1)).Nodup) (hk : ∀ e ∈ es, e.1 ≠ []) :
    ∃ l : List (Bytes × GoVal t), l.Perm es ∧ l.Pairwise (fun a b => a.1 < b.1) ∧
      encodeRoot (.map header t (some es)) =
        .ret (.ok (elementText (header.getD [])
          (l.flatMap fun e => (leaves t e.2).map fun v => (e.1, escaped v)))) := by
  refine ⟨sortKeys es, sortKeys_perm es, sortKeys_strict es hn, ?_⟩
  have hall : ∀ e ∈ sortKeys es, encodeValue false t e.2 e.1 =
      .ret (.ok (((leaves t e.2).map fun x => b!" " ++ paramText (e.1, escaped x)).flatten)) := by
    intro e he
    exact encodeValue_plain ht (hk e ((sortKeys_perm es).mem_iff.mp he)) e.2
  simp only [encodeRoot, plain_builds ht, if_true]
  rw [encodeAll_ok hall, Res.bind_ok]
  congr 2
  unfold elementText headerWrite
  have : ((sortKeys es).flatMap fun e => ((leaves t e.2).map fun x => b!" " ++ paramText (e.1, escaped x)).flatten) =
      (((sortKeys es).flatMap fun e => (leaves t e.2).map fun v => (e.1, escaped v)).map fun p =>
        b!" " ++ paramText p).flatten := by
    induction sortKeys es with
    | nil => rfl
    | cons a r ih =>
      rw [List.flatMap_cons, List.flatMap_cons, List.map_append, List.flatten_append, ih, List.map_map]
      rfl
  rw [this]
  simp

/-- C21: a nil map writes nothing at all (not even an empty element). -/
theorem C21_nil_map (header : Option Bytes) (t : GoType) (ht : Plain t) :
    encodeRoot (.map header t none) = .ret (.ok []) := by
  simp [encodeRoot, plain_builds ht]

example : encodeRoot (.map (some b!"x@1") (.scalar true) (some [(b!"b", b!"1"), (b!"aa", b!"2"), (b!"a", b!"3")]))
    = .ret (.ok b!"[x@1 a=\"3\" aa=\"2\" b=\"1\"]") := by decide +kernel
example : ([b!"b", b!"aa", b!"a"] : List Bytes).Nodup := by decide

/-! ## C25 -/

/-- C25: the empty list is `-`. -/
theorem C25_empty : sdListMarshal [] = .ret (.ok b!"-") := rfl

/-- C25: a non-empty list of encodable elements is their concatenation, in order. -/
theorem C25_concat (l : List SD) (bs : List Bytes) (hne : l ≠ [])
    (h : l.map SD.marshal = bs.map fun b => .ret (.ok b)) : sdListMarshal l = .ret (.ok bs.flatten) := by
  have hl : l.length ≠ 0 := by simpa using hne
  unfold sdListMarshal
  rw [if_neg hl]
  clear hne hl
  induction l generalizing bs with
  | nil =>
    cases bs with
    | nil => rfl
    | cons b r => simp at h
  | cons x r ih =>
    cases bs with
    | nil => simp at h
    | cons b bs =>
      simp only [List.map_cons, List.cons.injEq] at h
      simp only [encodeAll, h.1, ih bs h.2, Res.bind_ok, List.flatten_cons]

/-- C25: when the encoding succeeds, it is the concatenation of the encodings of all elements. -/
theorem C25_ok_iff (l : List SD) (b : Bytes) (hne : l ≠ []) :
    sdListMarshal l = .ret (.ok b) ↔
      ∃ bs : List Bytes, l.map SD.marshal = bs.map (fun b => .ret (.ok b)) ∧ b = bs.flatten := by
  constructor
  · intro h
    have hl : l.length ≠ 0 := by simpa using hne
    unfold sdListMarshal at h
    rw [if_neg hl] at h
    clear hne hl
    induction l generalizing b with
    | nil =>
      simp only [encodeAll, Out.ret.injEq, Except.ok.injEq] at h
      exact ⟨[], rfl, by simp [← h]⟩
    | cons x r ih =>
      simp only [encodeAll] at h
      match hx : x.marshal, h with
      | .ret (.ok y), h =>
        simp only [Res.bind_ok] at h
        match hr : encodeAll SD.marshal r, h with
        | .ret (.ok z), h =>
          simp only [Res.bind_ok, Out.ret.injEq, Except.ok.injEq] at h
          obtain ⟨bs, h1, h2⟩ := ih z hr
          exact ⟨y :: bs, by simp [hx, h1], by simp [← h, h2]⟩
        | .ret (.error e), h => simp at h
        | .panic, h => simp at h
        | .hang, h => simp at h
      | .ret (.error e), h => simp at h
      | .panic, h => simp at h
      | .hang, h => simp at h
  · rintro ⟨bs, h1, rfl⟩
    exact C25_concat l bs hne h1

/-- C25: the first element that fails makes the whole list fail, with its error and no bytes. -/
theorem C25_error (l₁ l₂ : List SD) (x : SD) (e : Err) (h1 : ∀ y ∈ l₁, ∃ b, y.marshal = .ret (.ok b))
    (h2 : x.marshal = .ret (.error e)) : sdListMarshal (l₁ ++ x :: l₂) = .ret (.error e) := by
  unfold sdListMarshal
  rw [if_neg (by simp)]
  exact encodeAll_error h1 h2

/-- C25: the failure of the list is the failure of the message: no bytes are produced. -/
theorem C25_message_error (m : Message) (e : Err) :
    m.marshal = .ret (.error e) ↔ sdListMarshal m.sd = .ret (.error e) := by
  unfold Message.marshal
  match h : sdListMarshal m.sd with
  | .ret (.ok b) =>
    simp only [Res.bind_ok]
    split <;> simp
  | .ret (.error e') => simp
  | .panic => simp
  | .hang => simp

/-- C25: and the list is what is written in the message, between the msgid and the text. -/
theorem C25_message_ok (m : Message) (b : Bytes) (h : m.marshal = .ret (.ok b)) :
    ∃ sd pre, sdListMarshal m.sd = .ret (.ok sd) ∧
      b = pre ++ b!" " ++ m.msgid ++ b!" " ++ sd ++ (if m.message = [] then [] else b!" " ++ m.message) := by
  unfold Message.marshal at h
  match hs : sdListMarshal m.sd, h with
  | .ret (.ok sd), h =>
    refine ⟨sd, m.prio.marshal ++ b!" " ++ m.timestamp.format ++ b!" " ++ m.hostname ++ b!" " ++
      m.appname ++ b!" " ++ m.procid, rfl, ?_⟩
    simp only [Res.bind_ok] at h
    split at h
    · next hm =>
      rw [if_pos hm]
      simp only [Out.ret.injEq, Except.ok.injEq] at h
      rw [← h]; simp
    · next hm =>
      rw [if_neg hm]
      simp only [Out.ret.injEq, Except.ok.injEq] at h
      rw [← h]; simp
  | .ret (.error _), h => simp at h
  | .panic, h => simp at h
  | .hang, h => simp at h

/-- C25: `String()` of a message that cannot be encoded is empty. -/
theorem C25_message_string (m : Message) (e : Err) (h : sdListMarshal m.sd = .ret (.error e)) :
    m.string = .ret [] := by
  unfold Message.string
  rw [(C25_message_error m e).mpr h]

example : sdListMarshal [.unknown b!"x@1" [(b!"k", b!"v")], .tq ⟨true, false, none⟩] =
    .ret (.ok b!"[x@1 k=\"v\"][timeQuality tzKnown=\"1\"]") := by decide +kernel
example : sdListMarshal [.unknown b!"x@1" [], .tq ⟨false, true, none⟩, .unknown b!"y" []] =
    .ret (.error .invalidTimeQuality) := by decide +kernel

/-! ## C27 -/

/-- What C27 asks of a struct type and value so that nothing is missing: exported fields of plain types,
and no missing mandatory field. -/
def Spec.Encodable (f : GoField) : Prop :=
  f.exported = true ∧ Plain f.type ∧ f.name ≠ [] ∧ ¬ (HasMandatory f.tag ∧ Missing f.type f.val)

theorem paramName_ne {f : GoField} (h : f.name ≠ []) : paramName f ≠ [] := by
  unfold paramName
  split
  · next hc => exact hc.1
  · exact h

theorem encodeField_plain {f : GoField} (h : Encodable f) :
    encodeField f = .ret (.ok ((fieldParams f).map fun p => b!" " ++ paramText p).flatten) := by
  obtain ⟨hx, hp, hn, hm⟩ := h
  by_cases htag : f.tag = b!"-"
  · have : getName f = ([], false) := by unfold getName; rw [if_pos htag]
    unfold encodeField
    rw [this]
    simp [fieldParams, htag]
  · obtain ⟨h1, h2⟩ := getName_eq f htag
    rcases hg : getName f with ⟨nm, md⟩
    rw [hg] at h1 h2
    simp only at h1 h2
    subst h1
    have hne := paramName_ne hn
    have hz : ((paramName f).length == 0) = false := by simpa using hne
    unfold encodeField
    rw [hg]
    simp only [hz, Bool.or_false]
    by_cases hemp : isEmptyValue f.type f.val = true
    · rw [if_pos hemp]
      have hmd : md ≠ true := fun hc => hm ⟨h2.mp hc, (missing_iff _ _).mp hemp⟩
      rw [if_neg hmd]
      have hnil : fieldParams f = [] := by
        unfold fieldParams
        rw [if_neg htag]
        have hmiss := (missing_iff _ _).mp hemp
        obtain ⟨n, tg, ex, t, v⟩ := f
        cases hp with
        | scalar b =>
          cases b with
          | false => exact False.elim hmiss
          | true =>
            have hv : v = ([] : Bytes) := hmiss
            subst hv; rfl
        | ptr _ =>
          have hv : v = (none : Option _) := hmiss
          subst hv; rfl
        | slice _ =>
          rcases (hmiss : v = (none : Option (List _)) ∨ v = some []) with hv | hv <;> (subst hv; rfl)
      rw [hnil]; rfl
    · rw [if_neg hemp, if_pos (plain_builds hp)]
      rw [hx, Bool.not_true, encodeValue_plain hp hne]
      have hfp : fieldParams f = (leaves f.type f.val).map fun v => (paramName f, escaped v) := by
        unfold fieldParams
        rw [if_neg htag]
        split
        · exact absurd rfl hemp
        · rfl
      rw [hfp, List.map_map]
      rfl

/-- C27 (partial): a struct of exported fields of scalar, pointer and slice types, none of them a missing
mandatory one, is encoded as one element with the parameters of its fields in declaration order.
Missing: see the three `C27_..._violated` theorems. -/
theorem C27_struct_partial (header : Option Bytes) (fields : List GoField) (h : ∀ f ∈ fields, Encodable f) :
    encodeRoot (.struct header fields) =
      .ret (.ok (elementText (header.getD []) (fields.flatMap fieldParams))) := by
  simp only [encodeRoot]
  rw [encodeAll_ok (fun f hf => encodeField_plain (h f hf)), Res.bind_ok]
  congr 2
  unfold elementText headerWrite
  have : (fields.flatMap fun f => ((fieldParams f).map fun p => b!" " ++ paramText p).flatten) =
      ((fields.flatMap fieldParams).map fun p => b!" " ++ paramText p).flatten := by
    clear h
    induction fields with
    | nil => rfl
    | cons a r ih => rw [List.flatMap_cons, List.flatMap_cons, List.map_append, List.flatten_append, ih]
  rw [this]
  simp

/-- C27 (partial): with exported fields without interface types and without missing mandatory fields, the
encoder never panics, and it reports an error exactly when a field that is written reaches a value of an
unknown kind. -/
theorem C27_errors_partial (header : Option Bytes) (fields : List GoField)
    (h : ∀ f ∈ fields, f.exported = true ∧ NoIface f.type ∧ f.name ≠ [] ∧
      ¬ (HasMandatory f.tag ∧ Missing f.type f.val)) :
    ∃ r, encodeRoot (.struct header fields) = .ret r ∧
      ((∃ e, r = .error e) ↔
        ∃ f ∈ fields, f.tag ≠ b!"-" ∧ ¬ Missing f.type f.val ∧ Unknown f.type f.val) := by
  have hf : ∀ f ∈ fields, ∃ r, encodeField f = .ret r ∧
      ((∃ e, r = .error e) ↔ f.tag ≠ b!"-" ∧ ¬ Missing f.type f.val ∧ Unknown f.type f.val) := by
    intro f hmem
    obtain ⟨hx, hp, hn, hm⟩ := h f hmem
    by_cases htag : f.tag = b!"-"
    · have : getName f = ([], false) := by unfold getName; rw [if_pos htag]
      exact ⟨.ok [], by unfold encodeField; rw [this]; simp, by simp [htag]⟩
    · obtain ⟨h1, h2⟩ := getName_eq f htag
      rcases hg : getName f with ⟨nm, md⟩
      rw [hg] at h1 h2
      simp only at h1 h2
      subst h1
      have hz : ((paramName f).length == 0) = false := by simpa using paramName_ne hn
      unfold encodeField
      rw [hg]
      simp only [hz, Bool.or_false]
      by_cases hemp : isEmptyValue f.type f.val = true
      · have hmiss := (missing_iff _ _).mp hemp
        have hmd : md ≠ true := fun hc => hm ⟨h2.mp hc, hmiss⟩
        rw [if_pos hemp, if_neg hmd]
        exact ⟨_, rfl, by simp [hmiss]⟩
      · have hmiss : ¬ Missing f.type f.val := fun hc => hemp ((missing_iff _ _).mpr hc)
        rw [if_neg hemp, if_pos (noIface_builds hp), hx, Bool.not_true]
        obtain ⟨r, h3, h4⟩ := encodeValue_total hp (paramName f) f.val
        exact ⟨r, h3, h4.trans (by simp [htag, hmiss])⟩
  obtain ⟨r, h1, h2⟩ := encodeAll_total (f := encodeField) (l := fields) (fun f hm => (hf f hm).imp fun _ h => h.1)
  have hiff : (∃ a ∈ fields, ∃ e, encodeField a = .ret (.error e)) ↔
      ∃ f ∈ fields, f.tag ≠ b!"-" ∧ ¬ Missing f.type f.val ∧ Unknown f.type f.val := by
    constructor
    · rintro ⟨a, ha, e, he⟩
      obtain ⟨r', h3, h4⟩ := hf a ha
      refine ⟨a, ha, h4.mp ⟨e, ?_⟩⟩
      rw [h3] at he; simpa using he
    · rintro ⟨a, ha, hu⟩
      obtain ⟨r', h3, h4⟩ := hf a ha
      obtain ⟨e, rfl⟩ := h4.mpr hu
      exact ⟨a, ha, e, h3⟩
  cases r with
  | ok b =>
    refine ⟨.ok (headerWrite header ++ b ++ [RBRK]), by simp only [encodeRoot, h1, Res.bind_ok], ?_⟩
    rw [← hiff, ← h2]; simp
  | error e =>
    refine ⟨.error e, by simp only [encodeRoot, h1, Res.bind_err], ?_⟩
    rw [← hiff, ← h2]

/-- C27: roots that are neither structs, string maps nor marshalers are an error; `MarshalSD` hides it. -/
theorem C27_root_error : encodeRoot .other = .ret (.error .unsupportedType) ∧ marshalSD .other = .ret [] ∧
    encodeRoot .nil = .ret (.error .reflectValueError) ∧ marshalSD .nil = .ret [] := ⟨rfl, rfl, rfl, rfl⟩

/-- C27 is violated: a value of a type that is not a struct, a map or a pointer and implements `StructuredData` through
its pointer only is neither encoded nor refused, `MarshalSD` panics. -/
theorem C27_root_violated : encodeRoot .viaPointer = .panic ∧ marshalSD .viaPointer = .panic := ⟨rfl, rfl⟩

/-- C27 is violated: a missing mandatory field is not an error, the encoder panics. -/
theorem C27_mandatory_violated (header : Option Bytes) (f : GoField) (before after : List GoField)
    (hb : ∀ g ∈ before, Encodable g) (hm : HasMandatory f.tag) (hv : Missing f.type f.val) :
    encodeRoot (.struct header (before ++ f :: after)) = .panic := by
  have htag : f.tag ≠ b!"-" := by
    intro hc
    obtain ⟨pre, post, h1, _⟩ := hm
    rw [hc] at h1
    have := congrArg List.length h1
    simp at this; omega
  obtain ⟨h1, h2⟩ := getName_eq f htag
  have hf : encodeField f = .panic := by
    unfold encodeField
    rcases hg : getName f with ⟨nm, md⟩
    rw [hg] at h2
    have hmd : md = true := h2.mpr hm
    simp [(missing_iff _ _).mpr hv, hmd]
  simp only [encodeRoot]
  rw [encodeAll_panic (fun g hg => ⟨_, encodeField_plain (hb g hg)⟩) hf]
  rfl

/-- C27 is violated: a field of interface type, or an unexported non-empty field, panics. -/
theorem C27_panics_violated :
    encodeRoot (.struct none [⟨b!"A", [], true, .iface, some ()⟩]) = .panic ∧
    encodeRoot (.struct none [⟨b!"a", [], false, .scalar true, b!"x"⟩]) = .panic := ⟨rfl, rfl⟩

/-- C27, next to it: arrays are announced as supported but always give an error (unless empty). -/
theorem C27_array_error_violated (v : List Bytes) (hv : v ≠ []) :
    encodeRoot (.struct none [⟨b!"A", [], true, .array (.scalar true), v⟩]) = .ret (.error .reflectValueError) := by
  cases v with
  | nil => exact absurd rfl hv
  | cons a r => rfl

/-- A concrete struct: a tagged string, a skipped one, an empty one, a pointer, a list. -/
def exampleFields : List GoField :=
  [⟨b!"Name", b!"name,mandatory", true, .scalar true, b!"a]b"⟩,
   ⟨b!"Skip", b!"-", true, .scalar true, b!"x"⟩,
   ⟨b!"Empty", b!"", true, .scalar true, b!""⟩,
   ⟨b!"Ptr", b!"\"", true, .ptr (.scalar true), some b!""⟩,
   ⟨b!"List", b!"l", true, .slice (.scalar false), some [b!"1", b!"2"]⟩]
example : ∀ f ∈ exampleFields, Encodable f := by
  intro f hf
  simp only [exampleFields, List.mem_cons, List.not_mem_nil, or_false] at hf
  rcases hf with rfl | rfl | rfl | rfl | rfl
  · refine ⟨rfl, .scalar _, by decide, ?_⟩
    rintro ⟨_, h⟩; exact absurd h (by intro h; cases h)
  · refine ⟨rfl, .scalar _, by decide, ?_⟩
    rintro ⟨_, h⟩; exact absurd h (by intro h; cases h)
  · refine ⟨rfl, .scalar _, by decide, ?_⟩
    rintro ⟨⟨pre, post, h, _⟩, _⟩
    simp at h
  · refine ⟨rfl, .ptr (.scalar _), by decide, ?_⟩
    rintro ⟨_, h⟩; exact absurd h (by intro h; cases h)
  · refine ⟨rfl, .slice (.scalar _), by decide, ?_⟩
    rintro ⟨_, h⟩; rcases h with h | h <;> cases h
example : encodeRoot (.struct (some b!"x@1") exampleFields) =
    .ret (.ok b!"[x@1 name=\"a\\]b\" Ptr=\"\" l=\"1\" l=\"2\"]") := by decide +kernel

end Syslog5424
