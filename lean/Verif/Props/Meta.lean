import Verif.Model.Meta
import Verif.Lemmas.Encoder
import Verif.Props.Encoder
import Verif.Props.SData
/-! # Properties C67, C68, C69: `UnmarshalSD`, the identifiers of structured data, decoding generic structured data -/
namespace Syslog5424
open Spec

/-! ## C67 -/

/-- C67 is violated: given a pointer, `UnmarshalSD` reports success whatever the bytes are, an element or garbage, and
the value pointed to stays what it was. -/
theorem C67_no_effect_violated {α : Type} (data : Bytes) (old : α) : unmarshalSD data (.ptr old) = (none, .ptr old) := rfl

/-- C67, consequence: no value that can be encoded is ever read back. Whatever is encoded as `data` (here a map), and
whatever different value the target holds before the call, the target does not hold the encoded value afterwards although
no error is reported. -/
theorem C67_round_trip_violated (header : Option Bytes) (t : GoType) (es old : Option (List (Bytes × GoVal t))) (data : Bytes)
    (_ : encodeRoot (.map header t es) = .ret (.ok data)) (hne : old ≠ es) :
    (unmarshalSD data (.ptr old)).1 = none ∧ (unmarshalSD data (.ptr old)).2 ≠ .ptr es := by
  refine ⟨rfl, ?_⟩
  intro h
  simp only [unmarshalSD, decodeUnmarshal, Target.ptr.injEq] at h
  exact hne h

example : encodeRoot (.map (some b!"x@1") (.scalar true) (some [(b!"k", b!"v")])) = .ret (.ok b!"[x@1 k=\"v\"]") ∧
    (none : Option (List (Bytes × GoVal (.scalar true)))) ≠ some [(b!"k", b!"v")] := ⟨by decide +kernel, nofun⟩

/-- C67 (partial): what cannot receive a value, that is everything but a non-nil pointer, is reported; nothing is
modified. -/
theorem C67_invalid_target_partial {α : Type} (data : Bytes) (v : Target α) :
    ((unmarshalSD data v).1 = some .invalidUnmarshal ↔ ∀ x, v ≠ .ptr x) ∧
    ((unmarshalSD data v).1 = none ↔ ∃ x, v = .ptr x) ∧ (unmarshalSD data v).2 = v := by
  cases v <;> simp [unmarshalSD, decodeUnmarshal]

/-! ## C68 -/

/-- The encoded element `b` carries the SD-ID `id`. -/
def Spec.CarriesId (id b : Bytes) : Prop := ∃ rest, b = b!"[" ++ id ++ rest ∧ (rest = b!"]" ∨ ∃ r, rest = b!" " ++ r)

theorem encodeAll_starts {α : Type} {f : α → Res Bytes} {l : List α} {b : Bytes}
    (hf : ∀ a ∈ l, ∀ x, f a = .ret (.ok x) → x = [] ∨ ∃ r, x = SP :: r) (h : encodeAll f l = .ret (.ok b)) :
    b = [] ∨ ∃ r, b = SP :: r := by
  induction l generalizing b with
  | nil => simp only [encodeAll, Out.ret.injEq, Except.ok.injEq] at h; exact Or.inl h.symm
  | cons a l ih =>
    simp only [encodeAll] at h
    cases ha : f a with
    | panic => rw [ha] at h; simp at h
    | hang => rw [ha] at h; simp at h
    | ret r =>
      cases r with
      | error e => rw [ha] at h; simp at h
      | ok x =>
        rw [ha, Res.bind_ok] at h
        cases hl : encodeAll f l with
        | panic => rw [hl] at h; simp at h
        | hang => rw [hl] at h; simp at h
        | ret r2 =>
          cases r2 with
          | error e => rw [hl] at h; simp at h
          | ok y =>
            rw [hl, Res.bind_ok] at h
            simp only [Out.ret.injEq, Except.ok.injEq] at h
            subst h
            rcases hf a (by simp) x ha with rfl | ⟨r, rfl⟩
            · simpa using ih (fun a ha => hf a (by simp [ha])) hl
            · exact Or.inr ⟨r ++ y, rfl⟩

theorem prefixedWrite_starts {pfx d : Bytes} (h : pfx ≠ []) : ∃ r, prefixedWrite pfx d = SP :: r := by
  unfold prefixedWrite
  rw [if_neg (by simpa using h)]
  exact ⟨_, rfl⟩

/-- What is written under a name starts with a space. -/
theorem encodeValue_starts {ro : Bool} {pfx : Bytes} (hp : pfx ≠ []) : ∀ (t : GoType) (v : GoVal t) (b : Bytes),
    encodeValue ro t v pfx = .ret (.ok b) → b = [] ∨ ∃ r, b = SP :: r := by
  intro t
  induction t with
  | marshaler =>
    intro v b h
    simp only [encodeValue] at h
    split at h
    · simp only [Out.ret.injEq, Except.ok.injEq] at h; exact Or.inl h.symm
    split at h
    · simp at h
    · split at h
      · simp only [Out.ret.injEq, Except.ok.injEq] at h
        rw [← h]
        exact Or.inr (prefixedWrite_starts hp)
      · simp at h
      · simp at h
      · simp at h
  | scalar s =>
    intro v b h
    simp only [encodeValue] at h
    split at h
    · simp at h
    · simp only [Out.ret.injEq, Except.ok.injEq] at h
      rw [← h]
      exact Or.inr (prefixedWrite_starts hp)
  | ptr t ih =>
    intro v b h
    cases v with
    | none => simp only [encodeValue, Out.ret.injEq, Except.ok.injEq] at h; exact Or.inl h.symm
    | some w => exact ih w b h
  | iface => intro v b h; simp [encodeValue] at h
  | slice t ih =>
    intro v b h
    cases v with
    | none => simp only [encodeValue, Out.ret.injEq, Except.ok.injEq] at h; exact Or.inl h.symm
    | some l =>
      simp only [encodeValue] at h
      split at h
      · exact encodeAll_starts (fun a _ x hx => ih a x hx) h
      · simp at h
  | array t ih => intro v b h; simp [encodeValue] at h
  | unsupported => intro v b h; simp [encodeValue] at h

theorem encodeField_starts (f : GoField) (b : Bytes) (h : encodeField f = .ret (.ok b)) : b = [] ∨ ∃ r, b = SP :: r := by
  unfold encodeField at h
  rcases hg : getName f with ⟨nm, md⟩
  rw [hg] at h
  simp only at h
  split at h
  · split at h
    · simp at h
    · simp only [Out.ret.injEq, Except.ok.injEq] at h; exact Or.inl h.symm
  · rename_i hne
    split at h
    · refine encodeValue_starts ?_ _ _ _ h
      rintro rfl
      simp at hne
    · simp at h

theorem carries_of_body {header body : Bytes} (h : body = [] ∨ ∃ r, body = SP :: r) :
    CarriesId header (headerWrite (some header) ++ body ++ [RBRK]) := by
  refine ⟨body ++ [RBRK], by simp [headerWrite], ?_⟩
  rcases h with rfl | ⟨r, rfl⟩
  · exact Or.inl rfl
  · exact Or.inr ⟨r ++ [RBRK], rfl⟩

/-- C68 (partial): for a `TimeQuality`, and for what `GenericSD` makes of a struct or of a non-nil map without empty key,
the identifier (`SDID().MarshalText()`) is the SD-ID on the wire, whenever the encoding succeeds. Missing: unknown
structured data (`C68_unknown_violated`); `SDID().String()` (`C68_string_violated`). -/
theorem C68_identifier_partial (i : SDIDLight) (b : Bytes) :
    (∀ q, (SD.tq q).marshal = .ret (.ok b) → ∃ id, (SD.tq q).idText = some id ∧ CarriesId id b) ∧
    (∀ fields, (genericOfStruct i fields).marshal = .ret (.ok b) →
      ∃ id, (genericOfStruct i fields).idText = some id ∧ CarriesId id b) ∧
    (∀ t es, (∀ kv ∈ es, kv.1 ≠ []) → (genericOfMap i t (some es)).marshal = .ret (.ok b) →
      ∃ id, (genericOfMap i t (some es)).idText = some id ∧ CarriesId id b) := by
  refine ⟨?_, ?_, ?_⟩
  · intro q h
    refine ⟨b!"timeQuality", rfl, ?_⟩
    simp only [SD.marshal, TimeQuality.marshal] at h
    split at h
    · simp at h
    split at h
    · simp at h
    · simp only [Out.ret.injEq, Except.ok.injEq] at h
      rw [← h]
      refine ⟨_, by simp only [List.append_assoc]; rfl, ?_⟩
      rcases q with ⟨_ | _, _ | _, _ | x⟩ <;> simp
  · intro fields h
    refine ⟨i.string, rfl, ?_⟩
    simp only [genericOfStruct, SD.marshal, encodeRoot] at h
    cases hb : encodeAll encodeField fields with
    | panic => rw [hb] at h; simp at h
    | hang => rw [hb] at h; simp at h
    | ret r =>
      cases r with
      | error e => rw [hb] at h; simp at h
      | ok body =>
        rw [hb, Res.bind_ok] at h
        simp only [Out.ret.injEq, Except.ok.injEq] at h
        rw [← h]
        exact carries_of_body (encodeAll_starts (fun f _ x hx => encodeField_starts f x hx) hb)
  · intro t es hk h
    refine ⟨i.string, rfl, ?_⟩
    simp only [genericOfMap, SD.marshal, encodeRoot] at h
    split at h
    · cases hb : encodeAll (fun kv : Bytes × GoVal t => encodeValue false t kv.2 kv.1) (sortKeys es) with
      | panic => rw [hb] at h; simp at h
      | hang => rw [hb] at h; simp at h
      | ret r =>
        cases r with
        | error e => rw [hb] at h; simp at h
        | ok body =>
          rw [hb, Res.bind_ok] at h
          simp only [Out.ret.injEq, Except.ok.injEq] at h
          rw [← h]
          refine carries_of_body (encodeAll_starts ?_ hb)
          intro kv hkv x hx
          refine encodeValue_starts (hk kv ?_) _ _ _ hx
          exact (sortKeys_perm es).mem_iff.mp hkv
    · simp at h

example : (genericOfStruct ⟨b!"x@1", false, 1⟩ exampleFields).marshal =
    .ret (.ok b!"[x@1 name=\"a\\]b\" Ptr=\"\" l=\"1\" l=\"2\"]") := by decide +kernel
example : (SD.tq ⟨true, true, some 5⟩).marshal = .ret (.ok b!"[timeQuality tzKnown=\"1\" isSynced=\"1\" syncAccuracy=\"5\"]") := by
  decide +kernel

/-- C68 is violated: the elements that are not registered all have the same identifier, whatever their SD-ID: a program
cannot tell them apart by `SDID()`. -/
theorem C68_unknown_violated (name : Bytes) (params : List (Bytes × Bytes)) (hw : WellFormed name params)
    (hne : name ≠ b!"unknown@32473") :
    ∃ id b, (SD.unknown name params).idText = some id ∧ (SD.unknown name params).marshal = .ret (.ok b) ∧
      CarriesId name b ∧ ¬ CarriesId id b := by
  have hb : unknownMarshal name params = b!"[" ++ name ++ (unknownParams params ++ [RBRK]) := by simp [unknownMarshal]
  have hrest : unknownParams params ++ [RBRK] = b!"]" ∨ ∃ r, unknownParams params ++ [RBRK] = b!" " ++ r := by
    cases params with
    | nil => exact Or.inl rfl
    | cons p r => obtain ⟨k, v⟩ := p; exact Or.inr ⟨_, rfl⟩
  refine ⟨_, _, rfl, rfl, ⟨_, hb, hrest⟩, ?_⟩
  rintro ⟨rest, h1, h2⟩
  rw [hb] at h1
  simp only [List.append_assoc] at h1
  have h3 := List.append_cancel_left h1
  -- the name ends at the first space or bracket
  have hname : ∀ c ∈ name, c ≠ SP ∧ c ≠ RBRK := by
    intro c hc
    obtain ⟨h4, _, _, h5, _⟩ := hw.1.2 c hc
    refine ⟨?_, h5⟩
    rintro rfl
    exact absurd h4 (by decide)
  have hid : ∀ c ∈ b!"unknown@32473", c ≠ SP ∧ c ≠ RBRK := by decide
  have stop : ∀ (a b x y : Bytes), (∀ c ∈ a, c ≠ SP ∧ c ≠ RBRK) → (∀ c ∈ b, c ≠ SP ∧ c ≠ RBRK) →
      (x = b!"]" ∨ ∃ r, x = b!" " ++ r) → (y = b!"]" ∨ ∃ r, y = b!" " ++ r) → a ++ x = b ++ y → a = b := by
    intro a
    induction a with
    | nil =>
      intro b x y _ hb hx hy h
      cases b with
      | nil => rfl
      | cons d b =>
        exfalso
        have hd := hb d (by simp)
        rcases hx with rfl | ⟨r, rfl⟩
        · simp at h; exact hd.2 h.1.symm
        · simp at h; exact hd.1 h.1.symm
    | cons c a ih =>
      intro b x y ha hb hx hy h
      cases b with
      | nil =>
        exfalso
        have hd := ha c (by simp)
        rcases hy with rfl | ⟨r, rfl⟩
        · simp at h; exact hd.2 h.1
        · simp at h; exact hd.1 h.1
      | cons d b =>
        simp only [List.cons_append, List.cons.injEq] at h
        rw [h.1, ih b x y (fun z hz => ha z (by simp [hz])) (fun z hz => hb z (by simp [hz])) hx hy h.2]
  exact hne (stop _ _ _ _ hname hid hrest h2 h3)

example : WellFormed b!"x@1" [(b!"k", b!"v")] ∧ b!"x@1" ≠ b!"unknown@32473" := by
  refine ⟨wellFormed_of_names (by decide) ?_, by decide⟩
  intro p hp
  simp at hp
  subst hp
  exact ⟨by decide, .byte (by decide) (by decide) (by decide) .nil⟩

/-- C68 is violated: `String()` of the identifier of a `TimeQuality`, which is also the key of the registry, is not its
SD-ID. -/
theorem C68_string_violated (q : TimeQuality) (b : Bytes) (h : (SD.tq q).marshal = .ret (.ok b)) :
    ∃ s, (SD.tq q).idString = some s ∧ ¬ CarriesId s b := by
  refine ⟨_, rfl, ?_⟩
  rintro ⟨rest, h1, _⟩
  obtain ⟨id, h2, rest', h3, _⟩ := (C68_identifier_partial ⟨[], false, 0⟩ b).1 q h
  simp only [SD.idText, Option.some.injEq] at h2
  subst h2
  rw [h3] at h1
  simp at h1

/-- C68: what `GenericSD` makes of a pointer, of whatever type, cannot be encoded: the error says that the type is not
supported. What a generic identifier gives as its default cannot be encoded either, for another reason: there is no
value. -/
theorem C68_pointer (i : SDIDLight) (header : Bytes) :
    (genericOfPointer i).marshal = .ret (.error .unsupportedType) ∧ (genericOfPointer i).idText = some i.string ∧
    (genericDefault header).marshal = .ret (.error .reflectValueError) ∧ (genericDefault header).idText = some header :=
  ⟨rfl, rfl, rfl, rfl⟩

/-- C68: what `IsIANA` and `GetPEN` say of an identifier of the package is what its text says by RFC 5424 section 7: a name
registered with IANA has no `@`; in the other names the enterprise number follows the `@`. -/
theorem C68_enterprise (sd : SD) (iana : Bool) (pen : Nat) (h : sd.registered = some (iana, pen)) :
    ∃ id, sd.idText = some id ∧
      (iana = true → (64 : UInt8) ∉ id) ∧
      (iana = false → ∃ name ds, id = name ++ b!"@" ++ ds ∧ (64 : UInt8) ∉ name ∧ IsDecimal pen ds) := by
  cases sd with
  | unknown n ps =>
    cases h
    refine ⟨_, rfl, nofun, fun _ => ⟨b!"unknown", b!"32473", by decide +kernel, by decide +kernel, ?_⟩⟩
    refine ⟨by decide +kernel, ?_, by decide +kernel, by decide +kernel⟩
    intro d hd
    have : ∀ d ∈ b!"32473", 48 ≤ d.toNat ∧ d.toNat ≤ 57 := by decide +kernel
    exact this d hd
  | tq q => cases h; exact ⟨_, rfl, fun _ => by decide +kernel, nofun⟩
  | generic id r => cases h
  | custom r => cases h

example : (SD.unknown b!"x@1" []).registered = some (false, 32473) ∧ (SD.tq ⟨true, true, none⟩).registered = some (true, 0) := ⟨rfl, rfl⟩

/-- C68: what an identifier of the package decodes has that identifier: the name under which it is registered is
`SDID().String()` of the result. -/
theorem C68_key (data : Slice) (sd : SD) :
    (tqFound data = .ret (some sd) → sd.idString = some tqSDID.key) ∧
    (∀ header, (genericSDID header).found data = .ret (some sd) → sd.idString = some (genericSDID header).key) := by
  constructor
  · intro h
    obtain ⟨t, rfl, _⟩ := C23_decoder_valid data sd h
    rfl
  · intro header h
    simp only [genericSDID] at h
    unfold genericFound at h
    rcases openElement_cases data with ⟨_, h1⟩ | ⟨_, _, h1⟩ | ⟨inner, _, h1⟩
    · rw [h1] at h; simp at h
    · rw [h1] at h; simp at h
    · rw [h1] at h
      simp only [Out.ret_bind] at h
      cases hs : (Slice.mk inner (RBRK :: data.spare)).sub 0 header.length with
      | panic => rw [hs] at h; simp at h
      | hang => rw [hs] at h; simp at h
      | ret a =>
        rw [hs] at h
        simp only [Out.ret_bind] at h
        split at h
        · simp at h
        · cases hf : (Slice.mk inner (RBRK :: data.spare)).from_ header.length with
          | panic => rw [hf] at h; simp at h
          | hang => rw [hf] at h; simp at h
          | ret b =>
            rw [hf] at h
            simp only [Out.ret_bind] at h
            split at h
            · simp at h; subst h; rfl
            · simp at h

example : tqFound (.exact b!"[timeQuality tzKnown=\"1\"]") = .ret (some (.tq ⟨true, false, none⟩)) ∧
    (genericSDID b!"x@1").found (.exact b!"[x@1]") = .ret (some (.generic b!"x@1" .nil)) := ⟨rfl, rfl⟩

/-! ## C69 -/

/-- C69 is violated: what a generic identifier recognises cannot be encoded again: the decoded value is empty, and
encoding it is an error. -/
theorem C69_reencode_violated (header : Bytes) (data : Slice) (sd : SD) (h : genericFound header data = .ret (some sd)) :
    ∃ e, sd.marshal = .ret (.error e) := by
  unfold genericFound at h
  cases ho : openElement data with
  | panic => rw [ho] at h; simp at h
  | hang => rw [ho] at h; simp at h
  | ret r =>
    rw [ho] at h
    simp only [Out.ret_bind] at h
    cases r with
    | none => simp at h
    | some d =>
      simp only at h
      cases hs : d.sub 0 header.length with
      | panic => rw [hs] at h; simp at h
      | hang => rw [hs] at h; simp at h
      | ret x =>
        rw [hs] at h
        simp only [Out.ret_bind] at h
        split at h
        · simp at h
        · cases hf : d.from_ header.length with
          | panic => rw [hf] at h; simp at h
          | hang => rw [hf] at h; simp at h
          | ret y =>
            rw [hf] at h
            simp only [Out.ret_bind] at h
            split at h
            · simp only [Out.pure_eq, Out.ret.injEq, Option.some.injEq] at h
              rw [← h]
              exact ⟨_, rfl⟩
            · simp at h

example : genericFound b!"x@1" (.exact b!"[x@1]") = .ret (some (.generic b!"x@1" .nil)) := rfl

/-- C69 is violated: a generic identifier never recognises an element of its own that has a parameter; such elements are
decoded as unknown ones. -/
theorem C69_parameters_violated (header : Bytes) (params : List (Bytes × Bytes)) (spare : Bytes) (hp : params ≠ [])
    (hh : (93 : UInt8) ∉ header) : genericFound header ⟨elementText header params, spare⟩ = .ret none := by
  have he : elementText header params = LBRK :: ((header ++ (params.map fun p => b!" " ++ paramText p).flatten) ++ [RBRK]) := by
    simp [elementText]
  rw [he, C24_generic_partial _ _ _ hh]
  cases params with
  | nil => exact absurd rfl hp
  | cons p r =>
    rw [if_neg (by simp; omega), if_neg]
    intro h
    have := congrArg List.length h
    simp at this

example : registryFound [genericSDID b!"x@1"] (.exact b!"[x@1 k=\"v\"]") = .ret (some (.unknown b!"x@1" [(b!"k", b!"v")])) := rfl

/-- C69: a generic identifier is registered under its name: once it is, the identifier under this name recognises
the element without parameters (`[name]`), with an empty value for this name; registering it again, or another one with the same name,
changes nothing. If another identifier has this name already, that one stays. -/
theorem C69_registered (reg : List SDID) (header : Bytes) (spare : Bytes) (hh : (93 : UInt8) ∉ header) :
    (registered reg header = none →
      ∃ s, registered (register reg (genericSDID header)) header = some s ∧
        s.found ⟨b!"[" ++ header ++ b!"]", spare⟩ = .ret (some (genericDefault header))) ∧
    (∀ s, registered reg header = some s → registered (register reg (genericSDID header)) header = some s) ∧
    (∀ s, s.key = header → register (register reg (genericSDID header)) s = register reg (genericSDID header)) := by
  have key : (genericSDID header).key = header := rfl
  refine ⟨?_, ?_, ?_⟩
  · intro hn
    refine ⟨genericSDID header, ?_, ?_⟩
    · unfold register
      unfold registered at hn ⊢
      rw [List.find?_eq_none] at hn
      rw [if_neg]
      · rw [List.find?_append, List.find?_eq_none.mpr hn]
        simp [key]
      · simp only [List.any_eq_true, not_exists, not_and]
        intro x hx
        have := hn x hx
        simpa [key] using this
    · have := C24_generic_partial header header spare hh
      rw [if_neg (by omega), if_pos rfl] at this
      simpa [genericSDID, genericDefault] using this
  · intro s hs
    unfold register
    split
    · exact hs
    · unfold registered at hs ⊢
      rw [List.find?_append, hs]; rfl
  · intro s hs
    have : (register reg (genericSDID header)).any (·.key == s.key) = true := by
      unfold register
      split
      · rename_i h; rw [hs]; simpa [key] using h
      · rw [List.any_append, hs]; simp [key]
    unfold register
    exact if_pos this

example : (93 : UInt8) ∉ b!"x@1" ∧ registered [tqSDID] b!"x@1" = none := by decide +kernel

/-! ## C25: `List.String` -/

/-- C25: `String()` of a list that can be encoded is its encoding, `-` for the empty list; of one that cannot be, the
empty string: the text of an error is never shown as structured data, and neither is half a list. -/
theorem C25_list_string (l : List SD) :
    (l = [] → sdListString l = .ret b!"-") ∧
    (∀ bs : List Bytes, l ≠ [] → l.map SD.marshal = bs.map (fun b => .ret (.ok b)) → sdListString l = .ret bs.flatten) ∧
    (∀ l₁ x l₂ e, l = l₁ ++ x :: l₂ → (∀ y ∈ l₁, ∃ b, y.marshal = .ret (.ok b)) → x.marshal = .ret (.error e) →
      sdListString l = .ret []) := by
  refine ⟨?_, ?_, ?_⟩
  · rintro rfl; rfl
  · intro bs hne h
    unfold sdListString
    rw [C25_concat l bs hne h]
  · rintro l₁ x l₂ e rfl h1 h2
    unfold sdListString
    rw [C25_error l₁ l₂ x e h1 h2]

example : sdListString [.unknown b!"x@1" [(b!"k", b!"v")], .tq ⟨false, true, none⟩] = .ret [] ∧
    sdListString [.unknown b!"x@1" [(b!"k", b!"v")], .tq ⟨true, false, none⟩] =
      .ret b!"[x@1 k=\"v\"][timeQuality tzKnown=\"1\"]" := by decide +kernel

/-- C25: a panic in the encoding of an element is not caught, and an encoding that does not end does not end: not by the
list, its text, the message or its text. -/
theorem C25_not_caught (l₁ l₂ : List SD) (x : SD) (m : Message) (h1 : ∀ y ∈ l₁, ∃ b, y.marshal = .ret (.ok b))
    (hm : m.sd = l₁ ++ x :: l₂) :
    (x.marshal = .panic → sdListMarshal m.sd = .panic ∧ sdListString m.sd = .panic ∧ m.marshal = .panic ∧ m.string = .panic) ∧
    (x.marshal = .hang → sdListMarshal m.sd = .hang ∧ sdListString m.sd = .hang ∧ m.marshal = .hang ∧ m.string = .hang) := by
  have e0 : sdListMarshal m.sd = encodeAll SD.marshal (l₁ ++ x :: l₂) := by
    unfold sdListMarshal
    rw [hm, if_neg (by simp)]
  refine ⟨fun h => ?_, fun h => ?_⟩
  · have e1 : sdListMarshal m.sd = .panic := e0.trans (encodeAll_panic h1 h)
    have e2 : m.marshal = .panic := by unfold Message.marshal; rw [e1]; rfl
    exact ⟨e1, by unfold sdListString; rw [e1], e2, by unfold Message.string; rw [e2]⟩
  · have e1 : sdListMarshal m.sd = .hang := by
      rw [e0]
      clear e0 hm
      induction l₁ with
      | nil => simp [encodeAll, h, Res.bind]
      | cons y r ih =>
        obtain ⟨b, hb⟩ := h1 y (by simp)
        simp only [List.cons_append, encodeAll, hb, Res.bind_ok, ih (fun z hz => h1 z (by simp [hz]))]
        rfl
    have e2 : m.marshal = .hang := by unfold Message.marshal; rw [e1]; rfl
    exact ⟨e1, by unfold sdListString; rw [e1], e2, by unfold Message.string; rw [e2]⟩

/-- Such an element: a user's type whose `Marshal5424` panics. -/
example : (SD.custom .panic).marshal = .panic ∧ (SD.tq ⟨true, false, none⟩).marshal = .ret (.ok b!"[timeQuality tzKnown=\"1\"]") := by
  decide +kernel

end Syslog5424
