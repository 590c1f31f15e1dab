import Verif.Lemmas.Found
/-! # Properties C20, C22, C23, C24, C26: structured data elements -/
namespace Syslog5424
open Spec

/-! ## C20 -/

/-- C20: a scalar written under a non-empty parameter name is written ` name="..."` with the value
escaped, for every value. -/
theorem C20_encoded_form (isString : Bool) (name v : Bytes) (hn : name ≠ []) :
    encodeValue false (.scalar isString) v name = .ret (.ok (b!" " ++ paramText (name, escaped v))) := by
  have hl : name.length ≠ 0 := by simpa using hn
  simp only [encodeValue, prefixedWrite, hl, if_false, escape_eq, paramText]
  simp

/-- C20: the same seen from the API: a map with one string is encoded as one element. -/
theorem C20_marshal_map (header : Option Bytes) (name v : Bytes) (hn : name ≠ []) :
    marshalSD (.map header (.scalar true) (some [(name, v)])) =
      .ret (elementText (header.getD []) [(name, escaped v)]) := by
  have := C20_encoded_form true name v hn
  simp only [marshalSD, encodeRoot, encoderBuilds, sortKeys, insertKey, encodeAll]
  rw [this]
  simp [headerWrite, elementText]

/-- C20: the value tokenizer, started on the opening quote, returns exactly the escaped bytes and stops
exactly after the closing quote, whatever follows. -/
theorem C20_tokenizer (v suffix : Bytes) :
    nextSDValue (b!"\"" ++ escaped v ++ b!"\"" ++ suffix) = some (escaped v, suffix) := by
  have := nextSDValue_complete (rawValue_escaped v) suffix
  simpa using this

/-- C20: un-escaping gives the value back. -/
theorem C20_unescape (v : Bytes) : unescape (escaped v) = v := unescape_escaped v

/-- C20: what the tokenizer accepts: a quoted string in which quotes and brackets are escaped. -/
theorem C20_tokenizer_sound (s x rest : Bytes) (h : nextSDValue s = some (x, rest)) :
    RawValue x ∧ s = b!"\"" ++ x ++ b!"\"" ++ rest := by
  obtain ⟨h1, h2⟩ := nextSDValue_sound h
  exact ⟨h1, by rw [h2]; simp⟩

/-- C20: two values with the same encoding (even followed by different bytes) are equal. -/
theorem C20_injective (isString : Bool) (name v w a b : Bytes) (hn : name ≠ []) (x y : Bytes)
    (hv : encodeValue false (.scalar isString) v name = .ret (.ok x))
    (hw : encodeValue false (.scalar isString) w name = .ret (.ok y)) (h : x ++ a = y ++ b) : v = w ∧ a = b := by
  rw [C20_encoded_form isString name v hn] at hv
  rw [C20_encoded_form isString name w hn] at hw
  simp only [Out.ret.injEq, Except.ok.injEq] at hv hw
  subst hv; subst hw
  have h2 : b!"\"" ++ escaped v ++ b!"\"" ++ a = b!"\"" ++ escaped w ++ b!"\"" ++ b := by
    simpa [paramText] using h
  have h3 := C20_tokenizer v a
  rw [h2, C20_tokenizer w b] at h3
  simp only [Option.some.injEq, Prod.mk.injEq] at h3
  refine ⟨?_, h3.2.symm⟩
  rw [← unescape_escaped v, ← unescape_escaped w, h3.1]

/-- Finding, next to C20: with an empty map key nothing is written but the raw value, unescaped. -/
theorem C20_empty_key_raw (header : Option Bytes) (v : Bytes) :
    marshalSD (.map header (.scalar true) (some [([], v)])) = .ret (b!"[" ++ header.getD [] ++ v ++ b!"]") := by
  simp [marshalSD, encodeRoot, encoderBuilds, sortKeys, insertKey, encodeAll, encodeValue, prefixedWrite, headerWrite]

example : marshalSD (.map (some b!"x@1") (.scalar true) (some [(b!"k", b!"a\"b]c\\d")])) =
    .ret b!"[x@1 k=\"a\\\"b\\]c\\\\d\"]" := by decide +kernel
example : nextSDValue b!"\"a\\\"b\\]\" c=\"d\"" = some (b!"a\\\"b\\]", b!" c=\"d\"") := by decide +kernel

/-! ## C22 -/

/-- C22 (partial): encoding then decoding a well formed element with at least one parameter gives the
same element, whatever the spare capacity. Missing: elements without parameters, see
`C22_no_params_violated`. -/
theorem C22_encode_decode_partial (id : Bytes) (ps : List (Bytes × Bytes)) (hw : WellFormed id ps)
    (hne : ps ≠ []) (spare : Bytes) :
    ∃ b, (SD.unknown id ps).marshal = .ret (.ok b) ∧ b = elementText id ps ∧
      unknownFound ⟨b, spare⟩ = .ret (some (.unknown id ps)) := by
  refine ⟨_, rfl, unknownMarshal_eq id ps, ?_⟩
  rw [unknownMarshal_eq]
  have h := unknownFound_spaced hw.1 (ps.map fun p => (0, p)) (by simpa using hne)
    (by intro p hp; simp only [List.mem_map] at hp; obtain ⟨q, hq, rfl⟩ := hp; exact hw.2.1 q hq)
    (by simpa [List.map_map, Function.comp_def] using hw.2.2) spare
  rw [spacedText_zero] at h
  simpa [elementText, List.map_map, Function.comp_def] using h

/-- C22: what is decoded is re-encoded as the same element, with exactly one space before each
parameter where the input had one or more; nothing else changes. -/
theorem C22_decode_encode (data : Slice) (sd : SD) (h : unknownFound data = .ret (some sd)) :
    ∃ (id : Bytes) (l : List (Nat × Bytes × Bytes)),
      data.vis = b!"[" ++ id ++ (l.map fun p => List.replicate (p.1 + 1) 32 ++ paramText p.2).flatten ++ b!"]" ∧
      sd.marshal = .ret (.ok (elementText id (l.map (·.2)))) := by
  obtain ⟨id, l, rfl, hv, _⟩ := unknownFound_sound h
  refine ⟨id, l, ?_, ?_⟩
  · rw [hv]; simp [spacedText]
  · rw [← unknownMarshal_eq]; rfl

/-- C22: an element without superfluous spaces is reproduced exactly. -/
theorem C22_decode_encode_exact (data : Slice) (id : Bytes) (ps : List (Bytes × Bytes))
    (hv : data.vis = elementText id ps) (hw : WellFormed id ps) (sd : SD)
    (h : unknownFound data = .ret (some sd)) : sd.marshal = .ret (.ok data.vis) := by
  have hne : ps ≠ [] := by
    rintro rfl
    obtain ⟨id', l, _, hv', hn', hl', _⟩ := unknownFound_sound h
    rw [hv] at hv'
    simp [elementText] at hv'
    cases l with
    | nil => exact hl' rfl
    | cons p r =>
      have hv2 : id ++ [93] = (id' ++ spacedText (p :: r)) ++ [93] := by simpa using hv'
      have hv3 := List.append_cancel_right hv2
      have : SP ∈ id := by rw [hv3]; simp [spacedText, List.replicate_succ]
      exact absurd (hw.1.2 SP this) (by decide)
  obtain ⟨b, hb1, hb2, hb3⟩ := C22_encode_decode_partial id ps hw hne data.spare
  have : data = ⟨b, data.spare⟩ := by rw [hb2, ← hv]
  rw [this, hb3] at h
  simp only [Out.ret.injEq, Option.some.injEq] at h
  rw [← h, hb1, hb2, hv]

/-- C22, exact: the decoder reads an element `[id name="raw" ...]` (with an identifier and names without space, quote, bracket and equals
sign, and raw values) if and only if it is well formed and has parameters; then it reads this identifier and these parameters. -/
theorem C22_decodes_iff (id : Bytes) (ps : List (Bytes × Bytes)) (hid : ∀ c ∈ id, NameByte c)
    (hps : ∀ p ∈ ps, (∀ c ∈ p.1, NameByte c) ∧ RawValue p.2) (spare : Bytes) :
    ((∃ sd, unknownFound ⟨elementText id ps, spare⟩ = .ret (some sd)) ↔ WellFormed id ps ∧ ps ≠ []) ∧
    ∀ sd, unknownFound ⟨elementText id ps, spare⟩ = .ret (some sd) → sd = .unknown id ps := by
  have key : ∀ sd, unknownFound ⟨elementText id ps, spare⟩ = .ret (some sd) → WellFormed id ps ∧ ps ≠ [] := by
    intro sd h
    obtain ⟨id', l, rfl, hv, hn, hne, hl, hlast⟩ := unknownFound_sound h
    have e : elementText id ps = LBRK :: (id' ++ spacedText l ++ [RBRK]) := hv
    simp only [elementText, List.append_assoc, List.cons_append, List.nil_append, List.cons.injEq, true_and] at e
    have hsplit : ∀ (x y r t : Bytes), (∀ c ∈ x, NameByte c) → (∀ c ∈ y, NameByte c) → (∀ c, r.head? = some c → ¬ NameByte c) →
        (∀ c, t.head? = some c → ¬ NameByte c) → x ++ r = y ++ t → x = y ∧ r = t := by
      intro x
      induction x with
      | nil =>
        intro y r t _ hy hr _ h
        cases y with
        | nil => exact ⟨rfl, by simpa using h⟩
        | cons d y => exact absurd (hy d (by simp)) (hr d (by rw [List.nil_append] at h; rw [h]; rfl))
      | cons c x ih =>
        intro y r t hx hy hr ht h
        cases y with
        | nil => exact absurd (hx c (by simp)) (ht c (by rw [List.nil_append] at h; rw [← h]; rfl))
        | cons d y =>
          simp only [List.cons_append, List.cons.injEq] at h
          obtain ⟨e1, e2⟩ := ih y r t (fun z hz => hx z (by simp [hz])) (fun z hz => hy z (by simp [hz])) hr ht h.2
          exact ⟨by rw [h.1, e1], e2⟩
    have hd1 : ∀ c, ((ps.map fun p => b!" " ++ paramText p).flatten ++ b!"]").head? = some c → ¬ NameByte c := by
      intro c hc
      cases ps with
      | nil => simp at hc; subst hc; decide
      | cons p ps => simp at hc; subst hc; decide
    have hd2 : ∀ c, (spacedText l ++ [RBRK]).head? = some c → ¬ NameByte c := by
      intro c hc
      cases l with
      | nil => simp [spacedText] at hc; subst hc; decide
      | cons p l => simp [spacedText, List.replicate_succ] at hc; subst hc; decide
    obtain ⟨e1, e2⟩ := hsplit _ _ _ _ hid hn.2 hd1 hd2 e
    subst e1
    have e3 := List.append_cancel_right e2
    have hps' : ps = l.map (·.2) := by
      clear e e2 h hd1 hd2 hv hlast hne
      induction ps generalizing l with
      | nil =>
        cases l with
        | nil => rfl
        | cons q l => simp [spacedText] at e3
      | cons p ps ih =>
        cases l with
        | nil => simp [spacedText] at e3
        | cons q l =>
          obtain ⟨k, n, v⟩ := q
          have hq := hl (k, n, v) (by simp)
          have hp := hps p (by simp)
          have e4 : b!" " ++ paramText p ++ (ps.map fun p => b!" " ++ paramText p).flatten =
              List.replicate (k + 1) SP ++ (paramText (n, v) ++ spacedText l) := by
            simpa [spacedText] using e3
          cases k with
          | succ k =>
            exfalso
            simp only [List.replicate_succ, List.cons_append, List.nil_append, List.cons.injEq, paramText, List.append_assoc] at e4
            have e5 := e4.2
            cases hpn : p.1 with
            | nil => rw [hpn] at e5; simp at e5; exact absurd e5.1 (by decide)
            | cons c r =>
              rw [hpn] at e5
              simp only [List.cons_append, List.cons.injEq] at e5
              have := hp.1 c (by rw [hpn]; simp)
              rw [e5.1] at this
              exact absurd this (by decide)
          | zero =>
            simp only [List.replicate_succ, List.replicate_zero, List.cons_append, List.nil_append, List.cons.injEq, paramText, List.append_assoc] at e4
            obtain ⟨e5, e6⟩ := hsplit _ _ _ _ hp.1 hq.1 (by intro c hc; simp at hc; subst hc; decide) (by intro c hc; simp at hc; subst hc; decide) e4.2
            have e7 : b!"\"" ++ p.2 ++ b!"\"" ++ (ps.map fun p => b!" " ++ paramText p).flatten = b!"\"" ++ v ++ b!"\"" ++ spacedText l := by
              simpa [paramText] using e6
            have g1 := nextSDValue_complete hp.2 (ps.map fun p => b!" " ++ paramText p).flatten
            have g2 := nextSDValue_complete hq.2 (spacedText l)
            rw [show DQ :: (p.2 ++ DQ :: (ps.map fun p => b!" " ++ paramText p).flatten) = DQ :: (v ++ DQ :: spacedText l) from by simpa using e7, g2] at g1
            simp only [Option.some.injEq, Prod.mk.injEq] at g1
            simp only [List.map_cons, List.cons.injEq]
            exact ⟨Prod.ext e5 g1.1.symm, ih (fun q hq => hps q (by simp [hq])) l (fun q hq => hl q (by simp [hq])) g1.2.symm⟩
    exact ⟨⟨hn, hps, by rw [hps']; exact hlast⟩, by rw [hps']; simpa using hne⟩
  refine ⟨⟨fun ⟨sd, h⟩ => key sd h, fun ⟨hw, hne⟩ => ?_⟩, ?_⟩
  · obtain ⟨b, _, rfl, h⟩ := C22_encode_decode_partial id ps hw hne spare
    exact ⟨_, h⟩
  · intro sd h
    obtain ⟨hw, hne⟩ := key sd h
    obtain ⟨b, _, rfl, h'⟩ := C22_encode_decode_partial id ps hw hne spare
    rw [h] at h'
    simpa using h'

/-- C22: the decoder never panics or hangs on a non-empty element. -/
theorem C22_total (data : Slice) (h : data.vis ≠ []) : ∃ r, unknownFound data = .ret r :=
  unknownFound_total data h

/-- C22 is violated: an element without parameters, which RFC 5424 allows, is never decoded. -/
theorem C22_no_params_violated (id spare : Bytes) (hid : IsName id) :
    unknownFound ⟨elementText id [], spare⟩ = .ret none := by
  obtain ⟨r, hr⟩ := unknownFound_total ⟨elementText id [], spare⟩ (by simp [elementText])
  cases r with
  | none => exact hr
  | some sd =>
    exfalso
    obtain ⟨id', l, _, hv', hn', hl', _⟩ := unknownFound_sound hr
    simp [elementText] at hv'
    cases l with
    | nil => exact hl' rfl
    | cons p r =>
      have hv2 : id ++ [93] = (id' ++ spacedText (p :: r)) ++ [93] := by simpa using hv'
      have hv3 := List.append_cancel_right hv2
      have : SP ∈ id := by rw [hv3]; simp [spacedText, List.replicate_succ]
      exact absurd (hid.2 SP this) (by decide)

example : unknownFound ⟨b!"[x@1  k=\"a\\\"b\"   l=\"\"]", []⟩ =
    .ret (some (.unknown b!"x@1" [(b!"k", b!"a\\\"b"), (b!"l", b!"")])) := by rfl
example : WellFormed b!"x@1" [(b!"k", b!"a\\\"b"), (b!"l", b!"")] := by
  refine wellFormed_of_names (by decide +kernel) ?_
  intro p hp
  simp only [List.mem_cons, List.not_mem_nil, or_false] at hp
  rcases hp with rfl | rfl
  · exact ⟨by decide +kernel, .byte (by decide) (by decide) (by decide) (.escaped (.byte (by decide) (by decide) (by decide) .nil))⟩
  · exact ⟨by decide +kernel, .nil⟩

/-! ## C23 -/

/-- The combinations RFC 5424 section 7.1 forbids: synchronised without a known time zone, or an
accuracy without being synchronised. -/
def Spec.TqForbidden (t : TimeQuality) : Prop :=
  (t.tzKnown = false ∧ t.isSynced = true) ∨ (t.isSynced = false ∧ t.syncAccuracy ≠ none)

theorem isValid_iff (t : TimeQuality) : t.isValid = true ↔ ¬ TqForbidden t := by
  obtain ⟨a, b, c⟩ := t
  cases a <;> cases b <;> cases c <;> simp [TimeQuality.isValid, TqForbidden]

/-- C23: encoding fails exactly on the combinations the RFC forbids. -/
theorem C23_error_iff (t : TimeQuality) : (∃ e, t.marshal = .ret (.error e)) ↔ TqForbidden t := by
  have hv := isValid_iff t
  constructor
  · rintro ⟨e, he⟩
    apply Classical.byContradiction
    intro hn
    rw [TimeQuality.marshal, hv.mpr hn] at he
    simp only [Bool.not_true, Bool.false_eq_true, if_false] at he
    split at he <;> simp at he
  · intro hf
    have : t.isValid = false := by
      cases h : t.isValid with
      | false => rfl
      | true => exact absurd hf (hv.mp h)
    exact ⟨.invalidTimeQuality, by simp [TimeQuality.marshal, this]⟩

/-- C23 (partial): encoding panics exactly on allowed values with an accuracy of zero or less.
Missing: it should never panic, see `C23_zero_accuracy_violated`. -/
theorem C23_panics_exactly_partial (t : TimeQuality) :
    t.marshal = .panic ↔ ¬ TqForbidden t ∧ ∃ x, t.syncAccuracy = some x ∧ x ≤ 0 := by
  have hv := isValid_iff t
  cases h : t.isValid with
  | false =>
    have : TqForbidden t := by
      apply Classical.byContradiction
      intro hn; rw [hv.mpr hn] at h; simp at h
    simp [TimeQuality.marshal, h, this]
  | true =>
    have hn := hv.mp h
    simp only [TimeQuality.marshal, h, Bool.not_true, Bool.false_eq_true, if_false, hn, not_false_eq_true, true_and]
    unfold tqCapOk
    cases hs : t.syncAccuracy with
    | none => simp
    | some x =>
      simp only
      by_cases hx : 0 < x
      · simp [hx]
      · simp [hx]; omega

/-- C23 is violated: an accuracy of 0, which RFC 5424 allows, makes `Marshal5424` panic. -/
theorem C23_zero_accuracy_violated :
    ¬ TqForbidden ⟨true, true, some 0⟩ ∧ TimeQuality.marshal ⟨true, true, some 0⟩ = .panic := by
  refine ⟨?_, rfl⟩
  simp [TqForbidden]

/-- C23 is violated from the network too: an element with an accuracy of 0 (or a negative one) is
decoded, and encoding the result panics. -/
theorem C23_remote_violated :
    ∃ t, tqFound (.exact b!"[timeQuality tzKnown=\"1\" isSynced=\"1\" syncAccuracy=\"0\"]") = .ret (some (.tq t)) ∧
      t.marshal = .panic :=
  ⟨⟨true, true, some 0⟩, rfl, rfl⟩

/-- C23: the decoder never returns a combination the RFC forbids. -/
theorem C23_decoder_valid (data : Slice) (sd : SD) (h : tqFound data = .ret (some sd)) :
    ∃ t, sd = .tq t ∧ ¬ TqForbidden t := by
  rcases openElement_cases data with ⟨_, ho⟩ | ⟨_, _, ho⟩ | ⟨inner, hv, _⟩
  · unfold tqFound at h; rw [ho] at h; simp at h
  · unfold tqFound at h; rw [ho] at h; simp at h
  · obtain ⟨v, s⟩ := data
    simp only at hv; subst hv
    rw [tqFound_bracket] at h
    split at h
    · simp at h
    split at h
    · split at h
      · simp at h
        exact ⟨_, h.symm, by simp [TqForbidden]⟩
      · split at h
        · simp at h
        · next t _ =>
          split at h
          · next hval =>
            simp at h
            exact ⟨t, h.symm, (isValid_iff t).mp hval⟩
          · simp at h
        · simp at h
        · simp at h
    · simp at h

/-- The wire form of a TimeQuality, written from the RFC: only the known facts are stated. -/
def Spec.tqText (t : TimeQuality) (ds : Bytes) : Bytes :=
  elementText b!"timeQuality"
    ((if t.tzKnown then [(b!"tzKnown", b!"1")] else []) ++
     (if t.isSynced then [(b!"isSynced", b!"1")] else []) ++
     (if t.syncAccuracy.isSome then [(b!"syncAccuracy", ds)] else []))

theorem tqLoop_step {fuel : Nat} {t t' : TimeQuality} {n v rest : Bytes} (hn : IsName n) (hv : RawValue v)
    (ha : tqAssign t n v = some t') :
    tqLoop (fuel + 1) t ([32] ++ paramText (n, v) ++ rest) = tqLoop fuel t' rest := by
  obtain ⟨d, s1, h1, h2, h3⟩ := readParam hn hv 0 (rest := rest)
  rw [show List.replicate (0 + 1) SP = [32] from rfl] at h1
  rw [tqLoop, h1]
  simp only [h2, h3, ha]
  rw [if_neg (by simp)]

theorem rawValue_of_plain {v : Bytes} (h : ∀ c ∈ v, c ≠ 34 ∧ c ≠ 92 ∧ c ≠ 93) : RawValue v := by
  induction v with
  | nil => exact .nil
  | cons c r ih =>
    have := h c (by simp)
    exact .byte this.1 this.2.1 this.2.2 (ih fun x hx => h x (by simp [hx]))

theorem rawValue_natDec (n : Nat) : RawValue (natDec n) := by
  apply rawValue_of_plain
  intro c hc
  have := natDec_isDigit n c hc
  refine ⟨?_, ?_, ?_⟩ <;> (rintro rfl; exact absurd this (by decide))

/-- C23 (partial): every allowed value with a positive accuracy is encoded in the RFC form, and the
decoder gives it back. Missing: accuracies of zero or less (which panic). -/
theorem C23_round_trip_partial (t : TimeQuality) (hv : ¬ TqForbidden t)
    (hx : ∀ x, t.syncAccuracy = some x → 0 < x ∧ x < 2 ^ 63) (spare : Bytes) :
    ∃ b ds, (∀ x, t.syncAccuracy = some x → IsDecimal x.toNat ds) ∧ t.marshal = .ret (.ok b) ∧ b = tqText t ds ∧
      tqFound ⟨b, spare⟩ = .ret (some (.tq t)) := by
  have hval := (isValid_iff t).mpr hv
  obtain ⟨tz, sy, acc⟩ := t
  have n1 : IsName b!"tzKnown" := by decide +kernel
  have n2 : IsName b!"isSynced" := by decide +kernel
  have n3 : IsName b!"syncAccuracy" := by decide +kernel
  have r1 : RawValue b!"1" := .byte (by decide) (by decide) (by decide) .nil
  cases tz with
  | false =>
    cases sy with
    | true => simp [TimeQuality.isValid] at hval
    | false =>
      cases acc with
      | some x => simp [TimeQuality.isValid] at hval
      | none =>
        refine ⟨b!"[timeQuality]", [], by simp, rfl, by decide +kernel, ?_⟩
        refine (tqFound_bracket b!"timeQuality" spare).trans ?_
        rw [if_neg (by simp; omega)]; rfl
  | true =>
    cases sy with
    | false =>
      cases acc with
      | some x => simp [TimeQuality.isValid] at hval
      | none =>
        refine ⟨b!"[timeQuality tzKnown=\"1\"]", [], by simp, rfl, by decide +kernel, ?_⟩
        refine (tqFound_bracket b!"timeQuality tzKnown=\"1\"" spare).trans ?_
        rw [if_neg (by simp; omega)]; rfl
    | true =>
      cases acc with
      | none =>
        refine ⟨b!"[timeQuality tzKnown=\"1\" isSynced=\"1\"]", [], by simp, rfl, by decide +kernel, ?_⟩
        refine (tqFound_bracket b!"timeQuality tzKnown=\"1\" isSynced=\"1\"" spare).trans ?_
        rw [if_neg (by simp; omega)]; rfl
      | some x =>
        obtain ⟨hx0, hx1⟩ := hx x rfl
        obtain ⟨n, rfl⟩ : ∃ n : Nat, x = (n : Int) := ⟨x.toNat, by omega⟩
        have hid : intDec (n : Int) = natDec n := by
          unfold intDec; rw [if_neg (by omega)]; rfl
        refine ⟨tqText ⟨true, true, some (n : Int)⟩ (natDec n), natDec n, ?_, ?_, rfl, ?_⟩
        · intro y hy
          simp only [Option.some.injEq] at hy; subst hy
          exact natDec_isDecimal _
        · have hcap : tqCapOk ⟨true, true, some (n : Int)⟩ = true := by simp [tqCapOk]; omega
          unfold TimeQuality.marshal
          rw [hval, hcap]
          simp [hid, tqText, elementText, paramText]
        · have e : tqText ⟨true, true, some (n : Int)⟩ (natDec n) =
              LBRK :: ((b!"timeQuality" ++ ([32] ++ paramText (b!"tzKnown", b!"1") ++
                ([32] ++ paramText (b!"isSynced", b!"1") ++
                ([32] ++ paramText (b!"syncAccuracy", natDec n) ++ [])))) ++ [RBRK]) := by
            simp [tqText, elementText]
          rw [e, tqFound_bracket]
          have ha : tqAssign ⟨true, true, none⟩ b!"syncAccuracy" (natDec n) = some ⟨true, true, some (n : Int)⟩ := by
            unfold tqAssign
            rw [if_neg (by decide), if_neg (by decide), if_pos rfl, atoi_natDec (by omega)]
          rw [if_neg (by simp; omega), if_pos (by simp), if_neg (by simp)]
          have hd : (b!"timeQuality" ++ ([32] ++ paramText (b!"tzKnown", b!"1") ++
                ([32] ++ paramText (b!"isSynced", b!"1") ++
                ([32] ++ paramText (b!"syncAccuracy", natDec n) ++ [])))).drop 11 =
              ([32] ++ paramText (b!"tzKnown", b!"1") ++
                ([32] ++ paramText (b!"isSynced", b!"1") ++
                ([32] ++ paramText (b!"syncAccuracy", natDec n) ++ []))) := by simp
          rw [hd]
          obtain ⟨f, hf⟩ : ∃ f, (b!"timeQuality" ++ ([32] ++ paramText (b!"tzKnown", b!"1") ++
                ([32] ++ paramText (b!"isSynced", b!"1") ++
                ([32] ++ paramText (b!"syncAccuracy", natDec n) ++ [])))).length - 11 + 1 = f + 1 + 1 + 1 + 1 :=
            ⟨_, by simp [paramText]; rfl⟩
          rw [hf, tqLoop_step n1 r1 (t' := ⟨true, false, none⟩) (by rfl),
            tqLoop_step n2 r1 (t' := ⟨true, true, none⟩) (by rfl),
            tqLoop_step n3 (rawValue_natDec n) ha]
          simp [tqLoop, TimeQuality.isValid]

example : TimeQuality.marshal ⟨true, true, some 60000000⟩ =
    .ret (.ok b!"[timeQuality tzKnown=\"1\" isSynced=\"1\" syncAccuracy=\"60000000\"]") := by decide +kernel
example : ¬ TqForbidden ⟨true, true, some 60000000⟩ := by simp [TqForbidden]

/-! ## C24 -/

/-- C24 (partial): with nothing registered, decoding never panics on a non-empty element. With
`timequality` imported it does not panic if the element has a capacity of at least 12 bytes. Missing:
shorter elements at the very end of their buffer, see `C24_short_element_violated`. -/
theorem C24_never_panics_partial (data : Slice) (h : data.vis ≠ []) :
    (∃ r, registryFound [] data = .ret r) ∧
    (12 ≤ data.cap → ∃ r, registryFound [tqSDID] data = .ret r) := by
  refine ⟨unknownFound_total data h, ?_⟩
  intro hc
  obtain ⟨r, hr⟩ := tqFound_total h hc
  obtain ⟨r', hr'⟩ := unknownFound_total data h
  unfold registryFound
  simp only [tqSDID, hr]
  cases r with
  | none => exact ⟨r', hr'⟩
  | some sd => exact ⟨_, rfl⟩

/-- C24 (partial): the exact condition: `[`...`]` elements whose capacity is below 12 bytes panic. -/
theorem C24_panics_exactly_partial (data : Slice) (h : data.vis ≠ []) :
    registryFound [tqSDID] data = .panic ↔
      (∃ inner, data.vis = b!"[" ++ inner ++ b!"]") ∧ data.cap < 12 := by
  by_cases hc : 12 ≤ data.cap
  · obtain ⟨r, hr⟩ := (C24_never_panics_partial data h).2 hc
    rw [hr]; simp; omega
  · rcases openElement_cases data with ⟨h0, _⟩ | ⟨_, hn, ho⟩ | ⟨inner, hv, ho⟩
    · exact absurd h0 h
    · have : tqFound data = .ret none := by unfold tqFound; rw [ho]; rfl
      obtain ⟨r', hr'⟩ := unknownFound_total data h
      unfold registryFound
      simp only [tqSDID, this]
      unfold registryFound
      rw [hr']
      constructor
      · intro hh; simp at hh
      · rintro ⟨⟨inner, hi⟩, _⟩; exact absurd (by simpa using hi) (hn inner)
    · constructor
      · intro _
        exact ⟨⟨inner, by simpa using hv⟩, by omega⟩
      · intro _
        obtain ⟨v, s⟩ := data
        simp only at hv; subst hv
        unfold registryFound
        simp only [tqSDID, tqFound_bracket]
        simp only [Slice.cap, List.length_cons, List.length_append, List.length_nil] at hc
        rw [if_pos (by omega)]

/-- C24 is violated: a short element in a buffer without spare capacity panics. -/
theorem C24_short_element_violated :
    registryFound [tqSDID] (.exact b!"[a b=\"c\"]") = .panic ∧
    registryFound [] (.exact b!"[a b=\"c\"]") = .ret (some (.unknown b!"a" [(b!"b", b!"c")])) := by
  exact ⟨rfl, rfl⟩

/-- C24 for a generic identifier: it panics exactly when the capacity is too small to hold it. -/
theorem C24_generic_partial (header : Bytes) (inner spare : Bytes) (hh : RBRK ∉ header) :
    genericFound header ⟨LBRK :: (inner ++ [RBRK]), spare⟩ =
      if inner.length + 1 + spare.length < header.length then .panic
      else if inner = header then .ret (some (.generic header .nil)) else .ret none := by
  unfold genericFound
  rw [openElement_bracket]
  simp only [Out.ret_bind]
  rw [sub_zero_cap]
  by_cases hc : inner.length + 1 + spare.length < header.length
  · rw [if_neg (by simp; omega), if_pos hc]; rfl
  · rw [if_pos (by simp; omega), if_neg hc]
    simp only [Out.ret_bind]
    by_cases hm : (inner ++ RBRK :: spare).take header.length = header
    · obtain ⟨q, rfl⟩ := header_match hh hm
      rw [if_neg (by simp), Slice.from_nat (by simp)]
      simp only [Out.ret_bind, List.drop_left]
      by_cases hq : q = []
      · subst hq; simp
      · rw [if_neg (by simpa using hq), if_neg (by simp [hq])]; rfl
    · rw [if_pos hm, if_neg]
      · rfl
      · rintro rfl; apply hm; simp

/-! ## C26 -/

/-- A registration call. -/
inductive RegCall where
  | register (s : SDID)
  | registerGroup (ss : List SDID)

def RegCall.apply (reg : List SDID) : RegCall → List SDID
  | register s => Syslog5424.register reg s
  | registerGroup ss => Syslog5424.registerGroup reg ss

/-- What is registered under a key. -/
def Spec.registered (reg : List SDID) (key : Bytes) : Option SDID := reg.find? (fun s => s.key == key)

theorem register_registered (reg : List SDID) (s : SDID) (k : Bytes) :
    registered (register reg s) k =
      match registered reg k with
      | some x => some x
      | none => if s.key == k then some s else none := by
  unfold register registered
  cases hf : reg.find? (fun x => x.key == k) with
  | some x =>
    split
    · simp [hf]
    · simp [List.find?_append, hf]
  | none =>
    simp only
    split
    · next h =>
      simp only [List.any_eq_true] at h
      obtain ⟨y, hy, hyk⟩ := h
      have hn := List.find?_eq_none.mp hf y hy
      rw [hf]
      by_cases hk : s.key == k
      · exfalso
        have e1 := eq_of_beq hyk
        have e2 := eq_of_beq hk
        exact hn (by rw [e1, e2]; simp)
      · simp [hk]
    · simp only [List.find?_append, hf, Option.none_or, List.find?_cons, List.find?_nil]
      split <;> simp_all

/-- C26: registering never replaces or removes an identifier: after any history of calls, what was
registered under a key still is. -/
theorem C26_first_wins (calls : List RegCall) (reg : List SDID) (k : Bytes) (x : SDID)
    (h : registered reg k = some x) : registered (calls.foldl RegCall.apply reg) k = some x := by
  have group : ∀ (ss : List SDID) (reg : List SDID), registered reg k = some x →
      registered (registerGroup reg ss) k = some x := by
    intro ss
    induction ss with
    | nil => intro reg h; exact h
    | cons s r ih =>
      intro reg h
      exact ih _ (by rw [register_registered, h])
  induction calls generalizing reg with
  | nil => exact h
  | cons c r ih =>
    refine ih _ ?_
    cases c with
    | register s => rw [RegCall.apply, register_registered, h]
    | registerGroup ss => exact group ss reg h

/-- C26: registering a new identifier makes it registered; nothing else appears. -/
theorem C26_register_adds (reg : List SDID) (s : SDID) :
    (registered reg s.key = none → registered (register reg s) s.key = some s) ∧
    ∀ k, k ≠ s.key → registered (register reg s) k = registered reg k := by
  constructor
  · intro h; rw [register_registered, h]; simp
  · intro k hk
    rw [register_registered]
    cases registered reg k with
    | some x => rfl
    | none => simp [Ne.symm hk]

/-- C26: a key never has two entries, whatever the history. -/
theorem C26_no_duplicates (calls : List RegCall) (reg : List SDID) (h : (reg.map (·.key)).Nodup) :
    ((calls.foldl RegCall.apply reg).map (·.key)).Nodup := by
  have one : ∀ (reg : List SDID) (s : SDID), (reg.map (·.key)).Nodup → ((register reg s).map (·.key)).Nodup := by
    intro reg s h
    unfold register
    split
    · exact h
    · next hn =>
      rw [List.map_append, List.nodup_append]
      refine ⟨h, by simp, ?_⟩
      intro a ha b hb
      simp only [List.map_cons, List.map_nil, List.mem_singleton] at hb
      subst hb
      rintro rfl
      apply hn
      simp only [List.mem_map] at ha
      obtain ⟨y, hy, hyk⟩ := ha
      simp only [List.any_eq_true]
      exact ⟨y, hy, by rw [hyk]; simp⟩
  have group : ∀ (ss : List SDID) (reg : List SDID), (reg.map (·.key)).Nodup →
      ((registerGroup reg ss).map (·.key)).Nodup := by
    intro ss
    induction ss with
    | nil => intro reg h; exact h
    | cons s r ih => intro reg h; exact ih _ (one reg s h)
  induction calls generalizing reg with
  | nil => exact h
  | cons c r ih =>
    refine ih _ ?_
    cases c with
    | register s => exact one reg s h
    | registerGroup ss => exact group ss reg h

theorem registryFound_skip {reg : List SDID} {data : Slice} (h : ∀ s ∈ reg, s.found data = .ret none) :
    registryFound reg data = unknownFound data := by
  induction reg with
  | nil => rfl
  | cons s r ih =>
    unfold registryFound
    rw [h s (by simp)]
    exact ih (fun x hx => h x (by simp [hx]))

theorem registryFound_one {reg : List SDID} {data : Slice} {s : SDID} {sd : SD} (hs : s ∈ reg)
    (hf : s.found data = .ret (some sd)) (h : ∀ x ∈ reg, x.found data = .ret none ∨ x.found data = .ret (some sd)) :
    registryFound reg data = .ret (some sd) := by
  induction reg with
  | nil => simp at hs
  | cons x r ih =>
    unfold registryFound
    rcases h x (by simp) with h1 | h1
    · rw [h1]
      simp only [List.mem_cons] at hs
      rcases hs with rfl | hs
      · rw [hf] at h1; simp at h1
      · exact ih hs (fun y hy => h y (by simp [hy]))
    · rw [h1]

/-- C26: if at most one registered identifier recognises the element (and none panics), the result
does not depend on the order in which the registry is searched. -/
theorem C26_order_independent (reg reg' : List SDID) (data : Slice) (hp : reg.Perm reg')
    (hall : ∀ s ∈ reg, ∃ r, s.found data = .ret r)
    (hone : ∀ s ∈ reg, ∀ s' ∈ reg, ∀ x y, s.found data = .ret (some x) → s'.found data = .ret (some y) → x = y) :
    registryFound reg data = registryFound reg' data := by
  by_cases h : ∃ s ∈ reg, ∃ sd, s.found data = .ret (some sd)
  · obtain ⟨s, hs, sd, hf⟩ := h
    have hcases : ∀ x ∈ reg, x.found data = .ret none ∨ x.found data = .ret (some sd) := by
      intro x hx
      obtain ⟨r, hr⟩ := hall x hx
      cases r with
      | none => exact Or.inl hr
      | some y => exact Or.inr (by rw [hr, hone x hx s hs y sd hr hf])
    rw [registryFound_one hs hf hcases,
      registryFound_one (hp.mem_iff.mp hs) hf (fun x hx => hcases x (hp.mem_iff.mpr hx))]
  · have hnone : ∀ s ∈ reg, s.found data = .ret none := by
      intro s hs
      obtain ⟨r, hr⟩ := hall s hs
      cases r with
      | none => exact hr
      | some y => exact absurd ⟨s, hs, y, hr⟩ h
    rw [registryFound_skip hnone, registryFound_skip (fun x hx => hnone x (hp.mem_iff.mpr hx))]

/-- C26: an element nobody recognises is decoded as unknown. -/
theorem C26_unknown (reg : List SDID) (data : Slice) (h : ∀ s ∈ reg, s.found data = .ret none) :
    registryFound reg data = unknownFound data := registryFound_skip h

example : (tqSDID.found (.exact b!"[x@1 k=\"v\" l=\"w\"]")) = .ret none ∧
    registered (registerGroup [] [tqSDID, genericSDID b!"x@1"]) b!"x@1" ≠ none := by
  constructor
  · rfl
  · simp [registerGroup, register, registered, tqSDID, genericSDID]

end Syslog5424
