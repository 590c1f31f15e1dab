import Verif.Props.EncoderExact
import Verif.Props.TimeQuality
import Verif.Model.TestKit
/-! # C95: the published test helpers pass exactly on what they are meant to establish -/
namespace Syslog5424
open Spec

/-! ## Decimal notation is unique -/

theorem valueRev_append_single (a : Bytes) (d : UInt8) : value (a ++ [d]) = (d.toNat - 48) + 10 * value a := by
  simp [value, valueRev]

theorem natDec_of_isDecimal (ds : Bytes) : ∀ n, IsDecimal n ds → natDec n = ds := by
  induction ds using List.reverseRecOn with
  | nil => intro n h; exact absurd rfl h.1
  | append_singleton pre d ih =>
    rintro n ⟨_, hd, hv, hz⟩
    have hdd : IsDigit d := hd d (by simp)
    have hd1 : 48 ≤ d.toNat ∧ d.toNat ≤ 57 := hdd
    rw [valueRev_append_single] at hv
    have hback : UInt8.ofNat (48 + (d.toNat - 48)) = d := by
      rw [show 48 + (d.toNat - 48) = d.toNat by omega]; exact UInt8.ofNat_toNat
    by_cases hp : pre = []
    · subst hp
      have : value [] = 0 := rfl
      rw [this] at hv
      rw [natDec_lt (by omega), ← hv]
      simp only [Nat.mul_zero, Nat.add_zero, hback, List.nil_append]
    · have hh : pre.head? ≠ some 48 := by
        intro h0
        have : (pre ++ [d]).head? = some 48 := by cases pre <;> simp_all
        have := congrArg List.length (hz this)
        cases pre <;> simp_all
      have hpre : IsDecimal (value pre) pre := ⟨hp, fun x hx => hd x (by simp [hx]), rfl, fun h => absurd h hh⟩
      have h1 := ih _ hpre
      have hpos : 0 < value pre := by
        apply Nat.pos_of_ne_zero
        intro h0
        rw [h0, natDec_lt (by omega)] at h1
        apply hh; rw [← h1]; rfl
      rw [natDec_ge (by omega)]
      have e1 : n / 10 = value pre := by omega
      have e2 : n % 10 = d.toNat - 48 := by omega
      rw [e1, e2, h1, hback]

/-! ## timeQuality -/

/-- The text is a timeQuality element that says `t`, and `t` is a combination RFC 5424 allows. -/
def Spec.IsTqText (orig : Bytes) (t : TimeQuality) : Prop :=
  ∃ l : List (Nat × Bytes × Bytes), orig = b!"[timeQuality" ++ spacedParams l ++ b!"]" ∧
    (∀ p ∈ l, TqParam p.2) ∧ TqSays (l.map (·.2)) t.tzKnown t.isSynced t.syncAccuracy ∧ ¬ TqForbidden t

theorem tqFound_reads (orig spare : Bytes) (sd : SD) :
    tqFound ⟨orig, spare⟩ = .ret (some sd) ↔ ∃ t, IsTqText orig t ∧ sd = .tq t := by
  rw [C23_decoder_reads]
  constructor
  · rintro ⟨l, t, h1, h2, h3, h4, h5⟩; exact ⟨t, ⟨l, h1, h2, h3, h4⟩, h5⟩
  · rintro ⟨t, ⟨l, h1, h2, h3, h4⟩, h5⟩; exact ⟨l, t, h1, h2, h3, h4, h5⟩

theorem tq_accuracy_fits {orig : Bytes} {t : TimeQuality} (h : IsTqText orig t) (x : Int) (hx : t.syncAccuracy = some x) :
    x < 2 ^ 63 := by
  obtain ⟨l, _, _, ⟨_, _, h3⟩, _⟩ := h
  obtain ⟨s, _, sign, ds, _, _, _, h4⟩ := (h3 x).mp hx
  rcases h4 with ⟨_, _, h⟩ | ⟨_, h, _⟩ <;> omega

/-- C95: `TestValid` on the timeQuality identifier passes exactly if the first text is a timeQuality element, the object
is what it says, its accuracy is not zero or negative, and the second text is the wire form of that object. -/
theorem C95_valid (other : SD → SD → Bool) (spare orig enc : Bytes) (obj : SD) :
    doTest other spare tqSDID (.valid orig obj enc) = .ret .pass ↔
      ∃ t ds, IsTqText orig t ∧ obj = .tq t ∧ (∀ x, t.syncAccuracy = some x → 0 < x ∧ IsDecimal x.toNat ds) ∧
        enc = tqText t ds := by
  constructor
  · intro h
    simp only [doTest, tqSDID] at h
    split at h
    · simp at h
    · simp at h
    · simp at h
    next o ho =>
    obtain ⟨t, ht, rfl⟩ := (tqFound_reads orig spare o).mp ho
    split at h
    · next hd =>
      have hobj : obj = .tq t := by
        cases obj <;> simp [deepEqual] at hd
        rw [hd]
      have hn : ¬ TqForbidden t := ht.choose_spec.2.2.2
      split at h
      · simp at h
      · simp at h
      · simp at h
      next d hm =>
      have hpos : ∀ x, t.syncAccuracy = some x → 0 < x ∧ x < 2 ^ 63 := by
        intro x hx
        refine ⟨?_, tq_accuracy_fits ht x hx⟩
        rcases Int.lt_or_le 0 x with h0 | h0
        · exact h0
        · have := (C23_panics_exactly_partial t).mpr ⟨hn, x, hx, h0⟩
          rw [show (SD.tq t).marshal = t.marshal from rfl, this] at hm
          simp at hm
      obtain ⟨b, ds, hds, hb, hbt, _⟩ := C23_round_trip_partial t hn hpos []
      rw [show (SD.tq t).marshal = t.marshal from rfl, hb] at hm
      simp only [Out.ret.injEq, Except.ok.injEq] at hm
      split at h
      · next he => exact ⟨t, ds, ht, hobj, fun x hx => ⟨(hpos x hx).1, hds x hx⟩, by rw [← he, ← hm, hbt]⟩
      · simp at h
    · simp at h
  · rintro ⟨t, ds, ht, rfl, hx, rfl⟩
    have hn : ¬ TqForbidden t := ht.choose_spec.2.2.2
    have ho := (tqFound_reads orig spare (.tq t)).mpr ⟨t, ht, rfl⟩
    obtain ⟨b, ds', hds, hb, hbt, _⟩ := C23_round_trip_partial t hn (fun x h => ⟨(hx x h).1, tq_accuracy_fits ht x h⟩) []
    have hbe : b = tqText t ds := by
      rw [hbt]
      cases hacc : t.syncAccuracy with
      | none => simp [tqText, hacc]
      | some x =>
        have := natDec_of_isDecimal _ _ (hds x hacc)
        have := natDec_of_isDecimal _ _ (hx x hacc).2
        simp_all
    simp only [doTest, tqSDID, ho, deepEqual, beq_self_eq_true, if_true]
    rw [show (SD.tq t).marshal = t.marshal from rfl, hb]
    simp [hbe]

/-- Non-trivial case: the last `TestValid` of sdata/timequality/tq_test.go. -/
example : doTest (fun _ _ => false) [] tqSDID (.valid
    b!"[timeQuality tzKnown=\"1\" isSynced=\"1\" syncAccuracy=\"60000000\"]" (.tq ⟨true, true, some 60000000⟩)
    b!"[timeQuality tzKnown=\"1\" isSynced=\"1\" syncAccuracy=\"60000000\"]") = .ret .pass := by decide +kernel
/-- and one that does not pass, because the object is another one -/
example : doTest (fun _ _ => true) [] tqSDID (.valid b!"[timeQuality tzKnown=\"1\"]" (.tq ⟨true, true, none⟩)
    b!"[timeQuality tzKnown=\"1\"]") = .ret .objectDiffers := by decide +kernel

/-- C95: `TestInvalidUnmarshal` on the timeQuality identifier passes exactly on the texts that are no timeQuality
element, if the text has at least twelve bytes, or if it has one and is not between brackets. (What happens with
shorter texts is in `C95_short_texts_violated`.) -/
theorem C95_invalid_unmarshal_partial (other : SD → SD → Bool) (spare orig : Bytes)
    (hlen : 12 ≤ orig.length ∨ orig ≠ [] ∧ ¬ ∃ inner, orig = b!"[" ++ inner ++ b!"]") :
    (doTest other spare tqSDID (.invalidUnmarshal orig) = .ret .pass ↔ ¬ ∃ t, IsTqText orig t) ∧
    (doTest other spare tqSDID (.invalidUnmarshal orig) = .ret .parses ↔ ∃ t, IsTqText orig t) := by
  have htot : ∃ r, tqFound ⟨orig, spare⟩ = .ret r := by
    rcases hlen with h | ⟨h, hb⟩
    · exact tqFound_total (data := ⟨orig, spare⟩) (by intro h0; simp only at h0; subst h0; simp at h) (by simp [Slice.cap]; omega)
    · rcases openElement_cases ⟨orig, spare⟩ with ⟨h0, _⟩ | ⟨_, _, ho⟩ | ⟨inner, hv, _⟩
      · exact absurd h0 h
      · unfold tqFound; rw [ho]; exact ⟨_, rfl⟩
      · exact absurd ⟨inner, by simpa using hv⟩ hb
  obtain ⟨r, hr⟩ := htot
  cases r with
  | none =>
    have hno : ¬ ∃ t, IsTqText orig t := by
      rintro ⟨t, ht⟩
      have := (tqFound_reads orig spare (.tq t)).mpr ⟨t, ht, rfl⟩
      rw [hr] at this; simp at this
    simp [doTest, tqSDID, hr, hno]
  | some sd =>
    have hyes : ∃ t, IsTqText orig t := by
      obtain ⟨t, ht, _⟩ := (tqFound_reads orig spare sd).mp hr
      exact ⟨t, ht⟩
    simp [doTest, tqSDID, hr, hyes]

example : doTest (fun _ _ => false) [] tqSDID (.invalidUnmarshal b!"[timeQuality tzKnown=\"1\"isSynced=\"1\"]") = .ret .pass ∧
    doTest (fun _ _ => false) [] tqSDID (.invalidUnmarshal b!"timequality]") = .ret .pass ∧
    doTest (fun _ _ => false) [] tqSDID (.invalidUnmarshal b!"[timeQuality]") = .ret .parses := by decide +kernel

/-- C95 is violated by short texts: the helper panics on the empty text, and on every text between brackets that is
too short, with the bytes the conversion to a slice leaves behind it, to hold the name. -/
theorem C95_short_texts_violated (other : SD → SD → Bool) (spare : Bytes) :
    doTest other spare tqSDID (.invalidUnmarshal []) = .panic ∧
    ∀ inner : Bytes, inner.length + spare.length < 10 →
      doTest other spare tqSDID (.invalidUnmarshal (b!"[" ++ inner ++ b!"]")) = .panic := by
  constructor
  · rfl
  · intro inner h
    have : tqFound ⟨b!"[" ++ inner ++ b!"]", spare⟩ = .panic := by
      have := tqFound_bracket inner spare
      rw [if_pos (by omega)] at this
      simpa using this
    simp only [doTest, tqSDID, this]

/-- `[a]`: three bytes, for which the conversion allocates eight. -/
example : doTest (fun _ _ => false) [0, 0, 0, 0, 0] tqSDID (.invalidUnmarshal b!"[a]") = .panic := by decide +kernel

theorem errorVerdict_ok (err : Option Err) : errorVerdict none err = .ret .pass ↔ err = none := by
  cases err <;> simp [errorVerdict, sameError]

theorem errorVerdict_error (e : Err) (err : Option Err) :
    errorVerdict (some e) err = .ret .pass ↔ err = some e ∧ e.fresh = false ∧ ∀ p w, e ≠ .parseError p w := by
  cases err with
  | none => simp [errorVerdict, sameError]
  | some e' =>
    by_cases h : ∃ p w, e = .parseError p w
    · obtain ⟨p, w, rfl⟩ := h
      cases e' <;> simp [errorVerdict, sameError]
    · have hs : sameError (some e) (some e') = .ret (e == e' && !e.fresh) := by
        cases e <;> simp [sameError] at h ⊢
      have h' : ∀ p w, e ≠ .parseError p w := fun p w hw => h ⟨p, w, hw⟩
      simp only [errorVerdict, hs, Option.some.injEq]
      cases hf : e.fresh
      · simp only [Bool.not_false, Bool.and_true, beq_iff_eq, true_and]
        constructor
        · intro hh; split at hh
          · next he => exact ⟨he.symm, h'⟩
          · simp at hh
        · rintro ⟨rfl, _⟩; simp
      · simp

/-- C95: `TestInvalidMarshal` with a TimeQuality passes exactly if the error is the one of an invalid TimeQuality and
RFC 5424 forbids the combination, or if the error is nil and the combination is allowed and has no accuracy or a positive
one. -/
theorem C95_invalid_marshal (other : SD → SD → Bool) (spare : Bytes) (sdid : SDID) (t : TimeQuality) (err : Option Err) :
    doTest other spare sdid (.invalidMarshal (.tq t) err) = .ret .pass ↔
      err = some .invalidTimeQuality ∧ TqForbidden t ∨
      err = none ∧ ¬ TqForbidden t ∧ ∀ x, t.syncAccuracy = some x → 0 < x := by
  have hm : (SD.tq t).marshal = t.marshal := rfl
  by_cases hf : TqForbidden t
  · have hv : t.isValid = false := by
      cases h : t.isValid with
      | false => rfl
      | true => exact absurd hf ((isValid_iff t).mp h)
    have : t.marshal = .ret (.error .invalidTimeQuality) := by simp [TimeQuality.marshal, hv]
    simp only [doTest, hm, this, hf, not_true, false_and, and_false, and_true, or_false]
    rw [errorVerdict_error]
    simp [Err.fresh]
  · have hv := (isValid_iff t).mpr hf
    by_cases hx : ∀ x, t.syncAccuracy = some x → 0 < x
    · obtain ⟨b, hb⟩ : ∃ b, t.marshal = .ret (.ok b) := by
        have hc : tqCapOk t = true := by
          unfold tqCapOk
          split
          · rfl
          · next x h => simpa using hx x h
        simp [TimeQuality.marshal, hv, hc]
      simp only [doTest, hm, hb, hf, not_false_eq_true, and_false, false_or]
      rw [errorVerdict_ok]
      exact ⟨fun h => ⟨h, trivial, hx⟩, fun h => h.1⟩
    · have : t.marshal = .panic := by
        rw [C23_panics_exactly_partial]
        refine ⟨hf, ?_⟩
        apply Classical.byContradiction
        intro hn
        exact hx fun x h => by
          rcases Int.lt_or_le 0 x with h0 | h0
          · exact h0
          · exact absurd ⟨x, h, h0⟩ hn
      simp only [doTest, hm, this]
      constructor
      · intro h; simp at h
      · rintro (⟨_, h⟩ | ⟨_, _, h⟩)
        · exact absurd h hf
        · exact absurd h hx

example : doTest (fun _ _ => false) [] tqSDID (.invalidMarshal (.tq ⟨true, false, some 100⟩) (some .invalidTimeQuality)) =
    .ret .pass := by decide +kernel

/-! ## Generic structured data -/

theorem encodeAll_first_error {α : Type} {f : α → Res Bytes} {l : List α} {e : Err} (h : encodeAll f l = .ret (.error e)) :
    ∃ a ∈ l, f a = .ret (.error e) := by
  induction l with
  | nil => simp [encodeAll] at h
  | cons a r ih =>
    rw [encodeAll] at h
    cases hf : f a with
    | panic => rw [hf] at h; simp at h
    | hang => rw [hf] at h; simp at h
    | ret x =>
      cases x with
      | error e' =>
        rw [hf] at h; simp at h
        exact ⟨a, by simp, by rw [hf, h]⟩
      | ok x =>
        rw [hf] at h
        simp only [Res.bind_ok] at h
        cases hr : encodeAll f r with
        | panic => rw [hr] at h; simp at h
        | hang => rw [hr] at h; simp at h
        | ret y =>
          cases y with
          | ok y => rw [hr] at h; simp at h
          | error e' =>
            rw [hr] at h; simp at h
            obtain ⟨b, hb, hb'⟩ := ih (by rw [hr, h])
            exact ⟨b, by simp [hb], hb'⟩

theorem encodeValue_fresh (ro : Bool) (t : GoType) : ∀ (v : GoVal t) (pfx : Bytes) (e : Err),
    encodeValue ro t v pfx = .ret (.error e) → e.fresh = true := by
  induction t with
  | marshaler =>
    intro v pfx e h
    simp only [encodeValue] at h
    split at h
    · simp at h
    split at h
    · simp at h
    split at h <;> simp at h
    subst h; rfl
  | scalar b => intro v pfx e h; simp only [encodeValue] at h; split at h <;> simp at h
  | ptr t ih =>
    intro v pfx e h
    cases v with
    | none => simp [encodeValue] at h
    | some w => simp only [encodeValue] at h; exact ih w pfx e h
  | iface => intro v pfx e h; simp [encodeValue] at h
  | slice t ih =>
    intro v pfx e h
    cases v with
    | none => simp [encodeValue] at h
    | some l =>
      simp only [encodeValue] at h
      split at h
      · obtain ⟨w, _, hw⟩ := encodeAll_first_error h
        exact ih w pfx e hw
      · simp at h
  | array t _ => intro v pfx e h; simp [encodeValue] at h; subst h; rfl
  | unsupported => intro v pfx e h; simp [encodeValue] at h; subst h; rfl

theorem bind_ret_error {α β : Type} {x : Res α} {f : α → β} {e : Err}
    (h : Res.bind x (fun a => .ret (.ok (f a))) = .ret (.error e)) : x = .ret (.error e) := by
  cases x with
  | panic => simp at h
  | hang => simp at h
  | ret y =>
    cases y with
    | ok a => simp at h
    | error e' => simp at h; rw [h]

/-- Every error of the reflective encoder was allocated by the call. -/
theorem encodeRoot_fresh (r : GoRoot) (e : Err) (h : encodeRoot r = .ret (.error e)) : e.fresh = true := by
  cases r with
  | nil => simp [encodeRoot] at h; subst h; rfl
  | marshaler v => exact encodeValue_fresh false .marshaler v [] e h
  | struct header fields =>
    rw [encodeRoot] at h
    obtain ⟨f, _, hf⟩ := encodeAll_first_error (bind_ret_error h)
    simp only [encodeField] at hf
    split at hf
    · split at hf <;> simp at hf
    split at hf
    · exact encodeValue_fresh _ _ _ _ _ hf
    · simp at hf
  | map header t entries =>
    simp only [encodeRoot] at h
    split at h
    · split at h
      · simp at h
      · obtain ⟨kv, _, hk⟩ := encodeAll_first_error (bind_ret_error h)
        exact encodeValue_fresh _ _ _ _ _ hk
    · simp at h
  | other => simp [encodeRoot] at h; subst h; rfl
  | viaPointer => simp [encodeRoot] at h

/-- C95 is violated for generic structured data: that a value cannot be encoded cannot be tested. Whatever the value and
whatever the expected error, `TestInvalidMarshal` does not pass with a non-nil error — although there are values that
cannot be encoded, and the comparison is with the error that encoding them returns. -/
theorem C95_generic_errors_violated :
    (∀ other spare sdid id root e, doTest other spare sdid (.invalidMarshal (.generic id root) (some e)) ≠ .ret .pass) ∧
    (SD.generic b!"x@1" .other).marshal = .ret (.error .unsupportedType) ∧
    doTest (fun _ _ => true) [] tqSDID (.invalidMarshal (.generic b!"x@1" .other) (some .unsupportedType)) =
      .ret .errorDiffers := by
  refine ⟨?_, rfl, rfl⟩
  intro other spare sdid id root e h
  simp only [doTest, SD.marshal] at h
  split at h
  · simp at h
  · simp at h
  · simp [errorVerdict_ok] at h
  · next e' he =>
    have := encodeRoot_fresh root e' he
    rw [errorVerdict_error, this] at h
    simp at h

/-- C95 is violated for a user's structured data whose encoder returns a `ParseError`: comparing it with the one the
author expects panics, whatever the two are. -/
theorem C95_parse_errors_violated (other : SD → SD → Bool) (spare : Bytes) (sdid : SDID) (p q : Nat) (w x : String) :
    doTest other spare sdid (.invalidMarshal (.custom (.ret (.error (.parseError p w)))) (some (.parseError q x))) =
      .panic := rfl

/-- C95: for a user's structured data that returns another error, allocated once, the helper passes exactly if that is
the expected one; and the helper passes with nil exactly if the encoder returns no error. -/
theorem C95_custom (other : SD → SD → Bool) (spare : Bytes) (sdid : SDID) (r : Except Err Bytes) (err : Option Err) :
    (∀ n, r = .error (.other n) →
      (doTest other spare sdid (.invalidMarshal (.custom (.ret r)) err) = .ret .pass ↔ err = some (.other n))) ∧
    (doTest other spare sdid (.invalidMarshal (.custom (.ret r)) none) = .ret .pass ↔ ∃ d, r = .ok d) := by
  constructor
  · rintro n rfl
    simp only [doTest, SD.marshal, errorVerdict_error]
    simp [Err.fresh]
  · cases r with
    | ok d => simp only [doTest, SD.marshal, errorVerdict_ok]; simp
    | error e => simp only [doTest, SD.marshal, errorVerdict_error]; simp

example : doTest (fun _ _ => false) [] tqSDID (.invalidMarshal (.custom (.ret (.error (.other 3)))) (some (.other 3))) =
    .ret .pass := by decide +kernel

/-- C95 is violated for generic structured data: `TestValid` never passes on the identifier of a generic element
(`GenericSD(x).SDID()`), for no texts and no object: what the decoder returns cannot be encoded. -/
theorem C95_generic_valid_violated (other : SD → SD → Bool) (spare id orig enc : Bytes) (obj : SD) :
    doTest other spare (genericSDID id) (.valid orig obj enc) ≠ .ret .pass := by
  intro h
  simp only [doTest, genericSDID] at h
  split at h
  · simp at h
  · simp at h
  · simp at h
  next o ho =>
  have : o.marshal = .ret (.error .reflectValueError) := by
    unfold genericFound at ho
    rcases openElement_cases ⟨orig, spare⟩ with ⟨_, h1⟩ | ⟨_, _, h1⟩ | ⟨inner, _, h1⟩
    · rw [h1] at ho; simp at ho
    · rw [h1] at ho; simp at ho
    · rw [h1] at ho
      simp only [Out.ret_bind] at ho
      cases hs : (Slice.mk inner (RBRK :: spare)).sub 0 id.length with
      | panic => rw [hs] at ho; simp at ho
      | hang => rw [hs] at ho; simp at ho
      | ret a =>
        rw [hs] at ho
        simp only [Out.ret_bind] at ho
        split at ho
        · simp at ho
        · cases hf : (Slice.mk inner (RBRK :: spare)).from_ id.length with
          | panic => rw [hf] at ho; simp at ho
          | hang => rw [hf] at ho; simp at ho
          | ret b =>
            rw [hf] at ho
            simp only [Out.ret_bind] at ho
            split at ho
            · simp at ho; subst ho; rfl
            · simp at ho
  rw [this] at h
  split at h <;> simp at h

/-- The element is recognised, the object may be the right one, and the test does not pass. -/
example : doTest (fun _ _ => true) [] (genericSDID b!"x@1") (.valid b!"[x@1]" (.generic b!"x@1" .nil) b!"[x@1]") =
    .ret .cantMarshal := by decide +kernel

/-- C95: the test of a generic struct passes exactly if the fields ask for parameters only and the text is the element with
these parameters, in declaration order, escaped. -/
theorem C95_generic_struct (other : SD → SD → Bool) (spare : Bytes) (sdid : SDID) (orig id : Bytes) (header : Option Bytes)
    (fields : List GoField) (h : ∀ f ∈ fields, f.name ≠ []) :
    doTest other spare sdid (.generic orig (.generic id (.struct header fields))) = .ret .pass ↔
      ∃ ps : List (Bytes × Bytes), fields.flatMap fieldItems = (ps.map fun p => .param p.1 p.2) ∧
        orig = elementText (header.getD []) (ps.map fun p => (p.1, escaped p.2)) := by
  have hx := C27_exact header fields h
  simp only [doTest, SD.marshal]
  constructor
  · intro hp
    generalize hr : encodeRoot (.struct header fields) = r at hx hp
    generalize hi : fields.flatMap fieldItems = is at hx
    cases hx with
    | done ps =>
      simp only at hp
      split at hp
      · next he => exact ⟨ps, rfl, he.symm⟩
      · simp at hp
    | fails => simp at hp
    | crashes => simp at hp
    | stuck => simp at hp
  · rintro ⟨ps, hps, rfl⟩
    rw [hps] at hx
    rw [C27_exact_unique _ _ _ _ hx (.done ps)]
    simp

/-- Non-trivial cases: a struct with a tag, whose value is escaped; another text does not pass. -/
example : doTest (fun _ _ => false) [] tqSDID (.generic b!"[x@1 k=\"a\\\"b\"]"
      (.generic b!"x@1" (.struct (some b!"x@1") [⟨b!"K", b!"k", true, .scalar true, b!"a\"b"⟩]))) = .ret .pass ∧
    doTest (fun _ _ => false) [] tqSDID (.generic b!"[x@1 k=\"a\"b\"]"
      (.generic b!"x@1" (.struct (some b!"x@1") [⟨b!"K", b!"k", true, .scalar true, b!"a\"b"⟩]))) = .ret .textDiffers := by
  constructor <;> decide +kernel

end Syslog5424
