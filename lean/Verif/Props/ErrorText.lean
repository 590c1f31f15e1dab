import Verif.Lemmas.Literal
import Verif.Props.Diagnosis
import Verif.Model.Net
import Verif.Spec.SData
/-! # Property C94: the texts of the errors -/
namespace Syslog5424
open Spec Transport

/-! ## which errors `Parse` returns -/

/-- The errors that `Parse` returns with a built-in transport. -/
inductive OfParse : Err → Prop
  | pos0 : OfParse .pos0
  | posNotFound : OfParse .posNotFound
  | impossible : OfParse .impossible
  | incomplete : OfParse .incomplete
  | noHeader : OfParse .noHeader
  | invHeader : OfParse .invHeader
  | field (pos : Nat) : OfParse (.parseError pos "empty field expected")
  | sd (pos : Nat) : OfParse (.parseError pos "empty structured data expected")
  | bracket (pos : Nat) : OfParse (.parseError pos "\\\\ or \" expected")

theorem wrong_ofParse {b : Bytes} {e : Err} (h : Wrong b e) : OfParse e := by
  cases h <;> constructor

theorem prefixStrip_ofParse {t : Transport} {b d r : Option Slice} {atEOF : Bool} {e : Err}
    (h : t.prefixStrip b atEOF = .ret (d, r, some e)) : OfParse e := by
  unfold prefixStrip at h
  cases b with
  | none => simp at h
  | some buf =>
    simp only at h
    split at h
    · simp at h
    · cases t with
      | zeroEnded => simp at h
      | lfEnded => simp at h
      | rfc5425 =>
        simp only at h
        split at h
        · simp at h
        · split at h
          · simp at h; rw [← h.2.2]; constructor
          · simp at h; rw [← h.2.2]; constructor
          · split at h
            · simp at h; rw [← h.2.2]; constructor
            · split at h
              · split at h
                · cases hf : buf.from_ _ with
                  | ret x => rw [hf] at h; simp at h; rw [← h.2.2]; constructor
                  | panic => rw [hf] at h; cases h
                  | hang => rw [hf] at h; cases h
                · simp at h
              · cases hs : buf.sub _ _ with
                | panic => rw [hs] at h; cases h
                | hang => rw [hs] at h; cases h
                | ret x =>
                  rw [hs] at h
                  simp only [Out.ret_bind] at h
                  cases hf : buf.from_ _ with
                  | ret y => rw [hf] at h; simp at h
                  | panic => rw [hf] at h; cases h
                  | hang => rw [hf] at h; cases h

theorem cutAt_noError {buf : Slice} {i : Nat} {d r : Option Slice} {e : Err} : cutAt buf i ≠ .ret (d, r, some e) := by
  unfold cutAt
  cases hs : buf.sub 0 i with
  | panic => intro h; cases h
  | hang => intro h; cases h
  | ret x =>
    cases hf : buf.from_ (i + 1) with
    | ret y => simp
    | panic => simp
    | hang => simp

theorem suffixStrip_ofParse {t : Transport} {b d r : Option Slice} {atEOF : Bool} {e : Err}
    (h : t.suffixStrip b atEOF = .ret (d, r, some e)) : OfParse e := by
  unfold suffixStrip at h
  cases b with
  | none => simp at h
  | some buf =>
    simp only at h
    split at h
    · simp at h
    · cases t with
      | zeroEnded =>
        simp only at h
        split at h
        · exact absurd h cutAt_noError
        · split at h <;> simp at h
      | lfEnded =>
        simp only at h
        split at h
        · exact absurd h cutAt_noError
        · split at h
          · simp at h; rw [← h.2.2]; constructor
          · simp at h
      | rfc5425 => simp at h

theorem parseReturn_ofParse {m m' : MsgImm} {t : Option Transport} {atEOF : Bool} {data : Slice} {rest r : Option Slice}
    {e : Err} (h : parseReturn m t atEOF data rest = .ret (m', r, some e)) : OfParse e := by
  unfold parseReturn at h
  cases t with
  | none => simp at h
  | some t =>
    cases rest with
    | some _ => simp at h
    | none =>
      simp only at h
      cases hd : data.from_ m.text with
      | panic => rw [hd] at h; cases h
      | hang => rw [hd] at h; cases h
      | ret d =>
        rw [hd] at h
        simp only [Out.ret_bind] at h
        cases hs : t.suffixStrip (some d) atEOF with
        | panic => rw [hs] at h; cases h
        | hang => rw [hs] at h; cases h
        | ret x =>
          obtain ⟨d', r', e'⟩ := x
          rw [hs] at h
          simp only [Out.ret_bind] at h
          split at h
          · simp at h
          · split at h
            · cases hb : m.buffer.sub 0 (m.text + (Slice.ofNil d').len) with
              | panic => rw [hb] at h; cases h
              | hang => rw [hb] at h; cases h
              | ret b =>
                rw [hb] at h
                simp at h
                rw [h.2.2] at hs
                exact suffixStrip_ofParse hs
            · simp at h
              rw [h.2.2] at hs
              exact suffixStrip_ofParse hs

theorem parseBody_ofParse {data : Slice} {rest r : Option Slice} {mainErr : Option Err} {t : Option Transport}
    {atEOF : Bool} {m : MsgImm} {e : Err} (hm : ∀ e, mainErr = some e → OfParse e)
    (h : parseBody data rest mainErr t atEOF = .ret (m, r, some e)) : OfParse e := by
  rcases wrong_or_goes_on t atEOF rest mainErr data with ⟨e', hw⟩ | ⟨m', hg⟩
  · rw [parseBody_of_wrong t atEOF rest mainErr data hw] at h
    cases mainErr with
    | none =>
      simp [dispatchError] at h
      rw [← h.2.2]
      exact wrong_ofParse hw
    | some e'' =>
      simp [dispatchError] at h
      rw [← h.2.2]
      exact hm _ rfl
  · rw [hg] at h
    exact parseReturn_ofParse h

theorem parse_ofParse {data : Option Slice} {t : Option Transport} {atEOF : Bool} {m : MsgImm} {r : Option Slice} {e : Err}
    (h : parse data t atEOF = .ret (m, r, some e)) : OfParse e := by
  unfold parse at h
  cases t with
  | none => exact parseBody_ofParse (by simp) h
  | some t =>
    simp only at h
    cases hp : t.prefixStrip data atEOF with
    | panic => rw [hp] at h; cases h
    | hang => rw [hp] at h; cases h
    | ret x =>
      obtain ⟨d, r', e'⟩ := x
      rw [hp] at h
      simp only [Out.ret_bind] at h
      split at h
      · simp at h
      · refine parseBody_ofParse ?_ h
        intro e'' he
        subst he
        exact prefixStrip_ofParse hp

/-! ## the texts are printable -/

theorem natDec_printable (n : Nat) : Printable (natDec n) :=
  Printable.ascii fun c hc => by
    have := natDec_isDigit n c hc
    unfold IsDigit at this
    omega

theorem OfParse.text {table : Nat → Bool} {arg : Bytes} {e : Err} (h : OfParse e) :
    ∃ t, e.text table arg = some t ∧ Printable t := by
  have hp : ∀ (pos : Nat) (what : String), (∀ c ∈ strBytes what, 32 ≤ c.toNat ∧ c.toNat < 127) →
      ∃ t, (Err.parseError pos what).text table arg = some t ∧ Printable t := fun pos what hw =>
    ⟨_, rfl, Printable.append (Printable.append (Printable.append (Printable.append (Printable.append
      (Printable.ascii (by decide)) (quote_printable table arg)) (Printable.ascii (by decide))) (natDec_printable pos))
      (Printable.ascii (by decide))) (Printable.ascii hw)⟩
  cases h
  case field pos => exact hp pos _ (by decide +kernel)
  case sd pos => exact hp pos _ (by decide +kernel)
  case bracket pos => exact hp pos _ (by decide +kernel)
  all_goals exact ⟨_, rfl, Printable.ascii (by decide)⟩

theorem parsedData_of_parse {data : Option Slice} {t : Option Transport} {atEOF : Bool} {x : ParseRes}
    (h : parse data t atEOF = .ret x) : ∃ d, parsedData data t atEOF = .ret d := by
  unfold parse at h
  unfold parsedData
  cases t with
  | none => exact ⟨_, rfl⟩
  | some t =>
    simp only at h ⊢
    cases hp : t.prefixStrip data atEOF with
    | panic => rw [hp] at h; cases h
    | hang => rw [hp] at h; cases h
    | ret x => exact ⟨_, rfl⟩

/-- **C94.** Whatever the bytes, the transport and the end of the data: when `Parse` returns an error, this error has a
text, and the text is printable: well formed UTF-8, without control characters. -/
theorem C94_parse_printable (table : Nat → Bool) (data : Option Slice) (t : Option Transport) (atEOF : Bool) (m : MsgImm)
    (rest : Option Slice) (e : Err) (h : parse data t atEOF = .ret (m, rest, some e)) :
    ∃ text, parseText table data t atEOF = .ret (some text) ∧ Printable text := by
  obtain ⟨d, hd⟩ := parsedData_of_parse h
  obtain ⟨text, ht, hp⟩ := (parse_ofParse h).text (table := table) (arg := d.vis)
  refine ⟨text, ?_, hp⟩
  unfold parseText
  rw [h, hd]
  simp [ht]

/-- **C94.** Hence it is one line: no byte of it is a control character. -/
theorem C94_parse_one_line (table : Nat → Bool) (data : Option Slice) (t : Option Transport) (atEOF : Bool) (text : Bytes)
    (h : parseText table data t atEOF = .ret (some text)) : ∀ b ∈ text, 32 ≤ b.toNat ∧ b.toNat ≠ 127 := by
  cases hp : parse data t atEOF with
  | panic => unfold parseText at h; rw [hp] at h; cases h
  | hang => unfold parseText at h; rw [hp] at h; cases h
  | ret x =>
    obtain ⟨m, rest, e⟩ := x
    cases e with
    | none =>
      unfold parseText at h
      obtain ⟨d, hd⟩ := parsedData_of_parse hp
      rw [hp, hd] at h
      simp at h
    | some e =>
      obtain ⟨text', ht, hpr⟩ := C94_parse_printable table data t atEOF m rest e hp
      rw [h] at ht
      simp only [Out.ret.injEq, Option.some.injEq] at ht
      subst ht
      exact hpr.bytes

/-! ## what they show -/

theorem errorLine (table : Nat → Bool) (b : Bytes) (pos : Nat) (what : String) :
    ErrorLine (parseErrorText table b pos what) b pos what :=
  ⟨quote table b, natDec pos, quote_literal table b, natDec_isDecimal pos, rfl⟩

/-- **C94.** Without transport, the text of a `ParseError` shows all the bytes that were given to `Parse`, the position
and the message. -/
theorem C94_shows_nil (table : Nat → Bool) (data : Slice) (atEOF : Bool) (m : MsgImm) (rest : Option Slice) (pos : Nat)
    (what : String) (h : parse (some data) none atEOF = .ret (m, rest, some (.parseError pos what))) :
    ∃ text, parseText table (some data) none atEOF = .ret (some text) ∧ ErrorLine text data.vis pos what := by
  refine ⟨_, ?_, errorLine table data.vis pos what⟩
  unfold parseText parsedData
  rw [h]
  rfl

/-- **C94.** With a terminated transport too: all the bytes, not only those of the line. -/
theorem C94_shows_terminated (table : Nat → Bool) (t : Transport) (ht : t = .lfEnded ∨ t = .zeroEnded) (data : Slice)
    (atEOF : Bool) (m : MsgImm) (rest : Option Slice) (pos : Nat) (what : String)
    (h : parse (some data) (some t) atEOF = .ret (m, rest, some (.parseError pos what))) :
    ∃ text, parseText table (some data) (some t) atEOF = .ret (some text) ∧ ErrorLine text data.vis pos what := by
  refine ⟨_, ?_, errorLine table data.vis pos what⟩
  have hne : data.len ≠ 0 := by
    intro h0
    unfold parse at h
    rcases ht with rfl | rfl <;> simp [prefixStrip, h0] at h
  unfold parseText parsedData
  rw [h]
  rcases ht with rfl | rfl <;> simp [prefixStrip, hne, Slice.ofNil, Err.text]

/-- **C94.** With RFC 5425: the payload of the frame. -/
theorem C94_shows_rfc5425 (table : Nat → Bool) (data : Slice) (hcap : data.cap < 2 ^ 63) (atEOF : Bool) (m : MsgImm)
    (rest : Option Slice) (pos : Nat) (what : String)
    (h : parse (some data) (some .rfc5425) atEOF = .ret (m, rest, some (.parseError pos what))) :
    ∃ text hdr payload suffix, Ready data.vis hdr payload suffix ∧
      parseText table (some data) (some .rfc5425) atEOF = .ret (some text) ∧ ErrorLine text payload pos what := by
  have hw := (C81_rfc5425_exactly data atEOF hcap _).mp ⟨m, rest, h⟩
  generalize he : Err.parseError pos what = e at hw
  generalize hv : data.vis = b at hw
  cases hw with
  | noHeader => cases he
  | invHeader => cases he
  | incomplete => cases he
  | @payload _ hdr p suffix _ hr hw =>
    subst hv
    refine ⟨_, hdr, p, suffix, hr, ?_, errorLine table p pos what⟩
    have hi : indexByte SP data.vis = some hdr.length := by
      have := indexByte_append (q := p ++ suffix) hr.header
      rw [hr.bytes]; simpa using this
    have htk : data.vis.take hdr.length = hdr := by rw [hr.bytes]; simp
    have hrange := hr.range
    have ha : atoi (data.vis.take hdr.length) = some (p.length : Int) := by
      rw [htk]; exact atoi_readsInt.mpr ⟨hr.length, by omega, by omega⟩
    have hpd : parsedData (some data) (some .rfc5425) atEOF = .ret ⟨p, suffix ++ data.spare⟩ := by
      unfold parsedData
      rcases prefixStrip_cases data atEOF hcap with ⟨g, hp⟩ | ⟨_, g, hp⟩ | ⟨n, _, hn, g, g', hp⟩ |
        ⟨n, l', _, hn, g, g', hr', hp⟩ | ⟨n, l', _, hn, g, g', hr', hlt', hp⟩ | ⟨n, k, _, hn, g, g', hk, hp⟩
      · have := hr.enough; simp only [Slice.len] at g; omega
      · exfalso
        rw [hi] at g
        rcases g with g | g
        · cases g
        · simp only [Option.some.injEq] at g
          have : hdr = [] := List.length_eq_zero_iff.mp g
          obtain ⟨sign, ds, e, hd, _⟩ := hr.length
          rw [this] at e
          exact hd (List.append_eq_nil_iff.mp e.symm).2
      all_goals
        rw [hi, Option.some.injEq] at g
        subst g
        rw [ha] at g'
      · cases g'
      · simp only [Option.some.injEq] at g'
        subst g'
        exact absurd (⟨by omega, by omega⟩ : HeaderInRange _ _) hr'
      · exfalso
        simp only [Option.some.injEq] at g'
        subst g'
        have : data.len = hdr.length + 1 + p.length + suffix.length := by simp [Slice.len, hr.bytes]; omega
        omega
      · simp only [Option.some.injEq] at g'
        have hk' : k = p.length := by omega
        subst hk'
        simp only [hp, Out.ret_bind]
        have e1 : data.vis.take (hdr.length + 1 + p.length) = hdr ++ b!" " ++ p := by
          rw [hr.bytes, show hdr.length + 1 + p.length = (hdr ++ b!" " ++ p).length by simp; omega, List.take_left]
        have e2 : data.vis.drop (hdr.length + 1 + p.length) = suffix := by
          rw [hr.bytes, show hdr.length + 1 + p.length = (hdr ++ b!" " ++ p).length by simp; omega, List.drop_left]
        have e3 : (hdr ++ b!" " ++ p).drop (hdr.length + 1) = p := by
          rw [show hdr.length + 1 = (hdr ++ b!" ").length by simp, List.drop_left]
        rw [e1, e2, e3]
        rfl
    unfold parseText
    rw [h, hpd]
    rfl

/-! ## they tell the errors apart -/

theorem strBytes_inj {a b : String} (h : a.toUTF8.data.toList = b.toUTF8.data.toList) : a = b := by
  have h1 : a.toUTF8 = b.toUTF8 := by
    cases ha : a.toUTF8 with
    | mk x =>
      cases hb : b.toUTF8 with
      | mk y =>
        rw [ha, hb] at h
        simp only at h
        rw [Array.toList_inj.mp h]
  exact String.toByteArray_inj.mp h1

/-- **C94.** A text that reports a parse error shows the bytes, the position and the message without ambiguity. -/
theorem C94_unambiguous {text b b' : Bytes} {pos pos' : Nat} {what what' : String} (h : ErrorLine text b pos what)
    (h' : ErrorLine text b' pos' what') : b = b' ∧ pos = pos' ∧ what = what' := by
  obtain ⟨lit, ds, hl, hd, e⟩ := h
  obtain ⟨lit', ds', hl', hd', e'⟩ := h'
  rw [e] at e'
  simp only [List.append_assoc, List.cons_append, List.nil_append, List.cons.injEq, true_and] at e'
  obtain ⟨_, rfl, e2⟩ := hl.unique hl' e'
  simp only [List.cons.injEq, true_and] at e2
  have hsp : ∀ {n : Nat} {ds : Bytes}, IsDecimal n ds → (32 : UInt8) ∉ ds := by
    intro n ds hd hm
    have := hd.2.1 _ hm
    revert this; decide
  have hcut : ∀ {p p' q q' : Bytes}, (32 : UInt8) ∉ p → (32 : UInt8) ∉ p' → p ++ 32 :: q = p' ++ 32 :: q' →
      p = p' ∧ q = q' := by
    intro p
    induction p with
    | nil =>
      intro p' q q' _ h2 he
      cases p' with
      | nil => simpa using he
      | cons c p' =>
        simp only [List.nil_append, List.cons_append, List.cons.injEq] at he
        rw [← he.1] at h2
        simp at h2
    | cons c p ih =>
      intro p' q q' h1 h2 he
      cases p' with
      | nil =>
        simp only [List.nil_append, List.cons_append, List.cons.injEq] at he
        rw [he.1] at h1
        simp at h1
      | cons c' p' =>
        simp only [List.cons_append, List.cons.injEq] at he
        obtain ⟨rfl, rfl⟩ := ih (by simp at h1; exact h1.2) (by simp at h2; exact h2.2) he.2
        exact ⟨by rw [he.1], rfl⟩
  obtain ⟨rfl, e3⟩ := hcut (hsp hd) (hsp hd') e2
  exact ⟨rfl, hd.2.2.1.symm.trans hd'.2.2.1, strBytes_inj e3⟩

theorem OfParse.text_inj {table : Nat → Bool} {arg arg' : Bytes} {e e' : Err} (h : OfParse e) (h' : OfParse e')
    (ht : e.text table arg = e'.text table arg') : e = e' := by
  have hp : ∀ {pos pos' : Nat} {what what' : String},
      (Err.parseError pos what).text table arg = (Err.parseError pos' what').text table arg' →
      Err.parseError pos what = Err.parseError pos' what' := by
    intro pos pos' what what' h
    simp only [Err.text, Option.some.injEq] at h
    have h2 := errorLine table arg' pos' what'
    rw [← h] at h2
    obtain ⟨_, rfl, rfl⟩ := C94_unambiguous (errorLine table arg pos what) h2
    rfl
  have hl : ∀ {pos : Nat} {what : String} {b arg : Bytes} {c : UInt8}, c ≠ 123 →
      (Err.parseError pos what).text table arg ≠ some (c :: b) := by
    intro pos what b arg c hc h
    simp only [Err.text, parseErrorText, Option.some.injEq, List.append_assoc, List.cons_append,
      List.cons.injEq] at h
    exact hc h.1.symm
  cases h <;> cases h' <;> first
    | rfl
    | exact hp ht
    | exact absurd ht (hl (by decide))
    | exact absurd ht.symm (hl (by decide))
    | (exfalso; revert ht; simp [Err.text])

/-- **C94.** Two errors of `Parse` with the same text are the same error, even when the calls and the transports differ. -/
theorem C94_tells_apart (table : Nat → Bool) (data data' : Option Slice) (t t' : Option Transport) (atEOF atEOF' : Bool)
    (m m' : MsgImm) (rest rest' : Option Slice) (e e' : Err) (text : Bytes)
    (h : parse data t atEOF = .ret (m, rest, some e)) (h' : parse data' t' atEOF' = .ret (m', rest', some e'))
    (ht : parseText table data t atEOF = .ret (some text)) (ht' : parseText table data' t' atEOF' = .ret (some text)) :
    e = e' := by
  obtain ⟨d, hd⟩ := parsedData_of_parse h
  obtain ⟨d', hd'⟩ := parsedData_of_parse h'
  unfold parseText at ht ht'
  rw [h, hd] at ht
  rw [h', hd'] at ht'
  simp only [Out.ret_bind, Option.bind_some, Out.pure_eq, Out.ret.injEq] at ht ht'
  exact (parse_ofParse h).text_inj (parse_ofParse h') (ht.trans ht'.symm)

/-! ## the tokens of structured data -/

theorem headerLoopE_eq (pre s : Bytes) : (headerLoopE pre s).toOption = nextHeaderLoop pre s := by
  induction s generalizing pre with
  | nil => rfl
  | cons c r ih =>
    rw [headerLoopE, nextHeaderLoop]
    split
    · rfl
    · split
      · split <;> rfl
      · exact ih _

theorem nonSpaceLoopE_eq (s : Bytes) : (nonSpaceLoopE s).toOption = nextNonSpaceLoop s := by
  induction s with
  | nil => rfl
  | cons c r ih =>
    rw [nonSpaceLoopE, nextNonSpaceLoop]
    split
    · exact ih
    · rfl

theorem sdNameLoopE_eq (pre s : Bytes) : (sdNameLoopE pre s).toOption = nextSDNameLoop pre s := by
  induction s generalizing pre with
  | nil => rfl
  | cons c r ih =>
    rw [sdNameLoopE, nextSDNameLoop]
    split
    · rfl
    · split
      · rfl
      · exact ih _

theorem sdValueLoopE_eq (pre s : Bytes) : (sdValueLoopE pre s).toOption = nextSDValueLoop pre s := by
  induction hn : s.length using Nat.strongRecOn generalizing s pre with
  | _ n ih =>
    cases s with
    | nil => rw [sdValueLoopE, nextSDValueLoop]; rfl
    | cons c r =>
      rw [sdValueLoopE.eq_def, nextSDValueLoop.eq_def]
      simp only
      split
      · cases r with
        | nil => rfl
        | cons d r2 => exact ih _ (by subst hn; simp; omega) _ _ rfl
      · split
        · rfl
        · split
          · rfl
          · exact ih _ (by subst hn; simp) _ _ rfl

/-- **C94.** The model of the tokens with errors and the one without (on which the theorems about structured data rest)
agree. -/
theorem C94_tokens_agree (data : Bytes) :
    (nextHeaderE data).toOption = nextHeader data ∧ (nextNonSpaceE data).toOption = nextNonSpace data ∧
    (nextSDNameE data).toOption = nextSDName data ∧ (nextSDValueE data).toOption = nextSDValue data := by
  refine ⟨?_, ?_, ?_, ?_⟩
  · unfold nextHeaderE nextHeader
    split
    · rfl
    · exact headerLoopE_eq _ _
  · unfold nextNonSpaceE nextNonSpace
    cases data with
    | nil => rfl
    | cons c r =>
      simp only
      split
      · rfl
      · exact nonSpaceLoopE_eq _
  · unfold nextSDNameE nextSDName
    split
    · rfl
    · exact sdNameLoopE_eq _ _
  · unfold nextSDValueE nextSDValue
    split
    · rfl
    · cases data with
      | nil => rfl
      | cons c r =>
        simp only
        split
        · rfl
        · exact sdValueLoopE_eq _ _

/-- **C94.** Their texts are printable, whatever the bytes. -/
theorem C94_tokens_printable (table : Nat → Bool) (e : TokErr) : Printable (e.text table) := by
  have ha : ∀ {b : Bytes}, (∀ c ∈ b, 32 ≤ c.toNat ∧ c.toNat < 127) → Printable b := fun h => Printable.ascii h
  cases e with
  | length data =>
    exact Printable.append (Printable.append (ha (by decide)) (quote_printable table data)) (ha (by decide))
  | char c => exact Printable.append (ha (by decide)) (natDec_printable _)
  | space => exact ha (b := TokErr.text (fun _ => false) .space) (by decide)
  | nonSpace => exact ha (b := TokErr.text (fun _ => false) .nonSpace) (by decide)
  | noQuote data =>
    exact Printable.append (Printable.append (ha (by decide)) (quote_printable table data)) (ha (by decide))
  | eof => exact ha (b := TokErr.text (fun _ => false) .eof) (by decide)

theorem sdNameLoopE_error (pre s : Bytes) (e : TokErr) :
    sdNameLoopE pre s = .error e ↔
      (∃ p c r, s = p ++ c :: r ∧ (∀ x ∈ p, NameByte x) ∧ ¬ NameByte c ∧ c ≠ 61 ∧ e = .char c) ∨
      ((∀ x ∈ s, NameByte x) ∧ e = .eof) := by
  induction s generalizing pre with
  | nil => simp [sdNameLoopE]; exact eq_comm
  | cons c r ih =>
    rw [sdNameLoopE]
    have hbad : (c ≤ SP ∨ c = 127 ∨ c = RBRK ∨ c = DQ) ↔ ¬ NameByte c ∧ c ≠ 61 := by
      simp only [NameByte, UInt8.le_iff_toNat_le, ← UInt8.toNat_inj, ne_eq, SP, RBRK, DQ, UInt8.reduceToNat]
      omega
    by_cases h1 : c ≤ SP ∨ c = 127 ∨ c = RBRK ∨ c = DQ
    · rw [if_pos h1]
      have hb := hbad.mp h1
      constructor
      · intro h
        simp only [Except.error.injEq] at h
        exact Or.inl ⟨[], c, r, rfl, by simp, hb.1, hb.2, h.symm⟩
      · rintro (⟨p, c', r', he, hp, hc, hc', rfl⟩ | ⟨hall, _⟩)
        · cases p with
          | nil => simp only [List.nil_append, List.cons.injEq] at he; rw [he.1]
          | cons x p =>
            simp only [List.cons_append, List.cons.injEq] at he
            exact absurd (he.1 ▸ hp x (by simp)) hb.1
        · exact absurd (hall c (by simp)) hb.1
    · rw [if_neg h1]
      by_cases h2 : c = EQC
      · rw [if_pos h2]
        have hn : ¬ NameByte c := by rw [h2]; decide
        constructor
        · intro h; cases h
        · rintro (⟨p, c', r', he, hp, hc, hc', rfl⟩ | ⟨hall, _⟩)
          · cases p with
            | nil => simp only [List.nil_append, List.cons.injEq] at he; exact absurd (he.1 ▸ h2) hc'
            | cons x p =>
              simp only [List.cons_append, List.cons.injEq] at he
              exact absurd (he.1 ▸ hp x (by simp)) hn
          · exact absurd (hall c (by simp)) hn
      · rw [if_neg h2, ih]
        have hn : NameByte c := Classical.byContradiction fun hn => h1 (hbad.mpr ⟨hn, h2⟩)
        constructor
        · rintro (⟨p, c', r', he, hp, hc⟩ | ⟨hall, he⟩)
          · exact Or.inl ⟨c :: p, c', r', by rw [he]; rfl, by simpa using ⟨hn, hp⟩, hc⟩
          · exact Or.inr ⟨by simpa using ⟨hn, hall⟩, he⟩
        · rintro (⟨p, c', r', he, hp, hc, hc', rfl⟩ | ⟨hall, he⟩)
          · cases p with
            | nil => simp only [List.nil_append, List.cons.injEq] at he; exact absurd (he.1 ▸ hn) hc
            | cons x p =>
              simp only [List.cons_append, List.cons.injEq] at he
              exact Or.inl ⟨p, c', r', he.2, fun y hy => hp y (by simp [hy]), hc, hc', rfl⟩
          · exact Or.inr ⟨fun y hy => hall y (by simp [hy]), he⟩

/-- **C94.** `NextSDName` reports data shorter than 4 bytes, else the first byte that is not of a name when no `=` is
before it, else the end of the data. -/
theorem C94_name_error (data : Bytes) (e : TokErr) :
    nextSDNameE data = .error e ↔
      (data.length < 4 ∧ e = .length data) ∨
      (4 ≤ data.length ∧ ∃ p c r, data = p ++ c :: r ∧ (∀ x ∈ p, NameByte x) ∧ ¬ NameByte c ∧ c ≠ 61 ∧ e = .char c) ∨
      (4 ≤ data.length ∧ (∀ x ∈ data, NameByte x) ∧ e = .eof) := by
  unfold nextSDNameE
  split
  · rename_i h
    constructor
    · intro he; simp only [Except.error.injEq] at he; exact Or.inl ⟨h, he.symm⟩
    · rintro (⟨_, rfl⟩ | ⟨h', _⟩ | ⟨h', _⟩)
      · rfl
      · omega
      · omega
  · rename_i h
    rw [sdNameLoopE_error]
    constructor
    · rintro (h' | h')
      · exact Or.inr (Or.inl ⟨by omega, h'⟩)
      · exact Or.inr (Or.inr ⟨by omega, h'⟩)
    · rintro (⟨h', _⟩ | ⟨_, h'⟩ | ⟨_, h'⟩)
      · exact absurd h' h
      · exact Or.inl h'
      · exact Or.inr h'

theorem headerLoopE_error (pre s : Bytes) (e : TokErr) :
    headerLoopE pre s = .error e ↔
      (∃ p c r, s = p ++ c :: r ∧ (∀ x ∈ p, NameByte x) ∧ ¬ NameByte c ∧ c ≠ 32 ∧ e = .char c) ∨
      (pre = [] ∧ (∃ r, s = 32 :: r) ∧ e = .space) ∨
      ((∀ x ∈ s, NameByte x) ∧ e = .eof) := by
  induction s generalizing pre with
  | nil => simp [headerLoopE]; exact eq_comm
  | cons c r ih =>
    rw [headerLoopE]
    have hbad : (c < SP ∨ c = EQC ∨ c = 127 ∨ c = RBRK ∨ c = DQ) ↔ ¬ NameByte c ∧ c ≠ 32 := by
      simp only [NameByte, UInt8.lt_iff_toNat_lt, ← UInt8.toNat_inj, ne_eq, SP, RBRK, DQ, EQC, UInt8.reduceToNat]
      omega
    by_cases h1 : c < SP ∨ c = EQC ∨ c = 127 ∨ c = RBRK ∨ c = DQ
    · rw [if_pos h1]
      have hb := hbad.mp h1
      constructor
      · intro h
        simp only [Except.error.injEq] at h
        exact Or.inl ⟨[], c, r, rfl, by simp, hb.1, hb.2, h.symm⟩
      · rintro (⟨p, c', r', he, hp, hc, hc', rfl⟩ | ⟨_, ⟨r', he⟩, _⟩ | ⟨hall, _⟩)
        · cases p with
          | nil => simp only [List.nil_append, List.cons.injEq] at he; rw [he.1]
          | cons x p =>
            simp only [List.cons_append, List.cons.injEq] at he
            exact absurd (he.1 ▸ hp x (by simp)) hb.1
        · simp only [List.cons.injEq] at he; exact absurd he.1 hb.2
        · exact absurd (hall c (by simp)) hb.1
    · rw [if_neg h1]
      by_cases h2 : c = SP
      · rw [if_pos h2]
        have hn : ¬ NameByte c := by rw [h2]; decide
        by_cases h3 : pre.length = 0
        · rw [if_pos h3]
          have hpre : pre = [] := List.length_eq_zero_iff.mp h3
          constructor
          · intro h
            simp only [Except.error.injEq] at h
            exact Or.inr (Or.inl ⟨hpre, ⟨r, by rw [h2]⟩, h.symm⟩)
          · rintro (⟨p, c', r', he, hp, hc, hc', rfl⟩ | ⟨_, _, rfl⟩ | ⟨hall, _⟩)
            · cases p with
              | nil => simp only [List.nil_append, List.cons.injEq] at he; exact absurd (he.1 ▸ h2) hc'
              | cons x p =>
                simp only [List.cons_append, List.cons.injEq] at he
                exact absurd (he.1 ▸ hp x (by simp)) hn
            · rfl
            · exact absurd (hall c (by simp)) hn
        · rw [if_neg h3]
          constructor
          · intro h; cases h
          · rintro (⟨p, c', r', he, hp, hc, hc', rfl⟩ | ⟨hp, _⟩ | ⟨hall, _⟩)
            · cases p with
              | nil => simp only [List.nil_append, List.cons.injEq] at he; exact absurd (he.1 ▸ h2) hc'
              | cons x p =>
                simp only [List.cons_append, List.cons.injEq] at he
                exact absurd (he.1 ▸ hp x (by simp)) hn
            · exact absurd (by rw [hp]; rfl) h3
            · exact absurd (hall c (by simp)) hn
      · rw [if_neg h2, ih]
        have hn : NameByte c := Classical.byContradiction fun hn => h1 (hbad.mpr ⟨hn, h2⟩)
        constructor
        · rintro (⟨p, c', r', he, hp, hc⟩ | ⟨hp, _⟩ | ⟨hall, he⟩)
          · exact Or.inl ⟨c :: p, c', r', by rw [he]; rfl, by simpa using ⟨hn, hp⟩, hc⟩
          · simp at hp
          · exact Or.inr (Or.inr ⟨by simpa using ⟨hn, hall⟩, he⟩)
        · rintro (⟨p, c', r', he, hp, hc, hc', rfl⟩ | ⟨_, ⟨r', he⟩, _⟩ | ⟨hall, he⟩)
          · cases p with
            | nil => simp only [List.nil_append, List.cons.injEq] at he; exact absurd (he.1 ▸ hn) hc
            | cons x p =>
              simp only [List.cons_append, List.cons.injEq] at he
              exact Or.inl ⟨p, c', r', he.2, fun y hy => hp y (by simp [hy]), hc, hc', rfl⟩
          · simp only [List.cons.injEq] at he; exact absurd he.1 h2
          · exact Or.inr (Or.inr ⟨fun y hy => hall y (by simp [hy]), he⟩)

/-- **C94.** `NextHeader` reports data shorter than 4 bytes, else a space at the beginning, else the first byte that is
not of a name when no space is before it, else the end of the data. -/
theorem C94_header_error (data : Bytes) (e : TokErr) :
    nextHeaderE data = .error e ↔
      (data.length < 4 ∧ e = .length data) ∨
      (4 ≤ data.length ∧ ∃ p c r, data = p ++ c :: r ∧ (∀ x ∈ p, NameByte x) ∧ ¬ NameByte c ∧ c ≠ 32 ∧ e = .char c) ∨
      (4 ≤ data.length ∧ (∃ r, data = 32 :: r) ∧ e = .space) ∨
      (4 ≤ data.length ∧ (∀ x ∈ data, NameByte x) ∧ e = .eof) := by
  unfold nextHeaderE
  split
  · rename_i h
    constructor
    · intro he; simp only [Except.error.injEq] at he; exact Or.inl ⟨h, he.symm⟩
    · rintro (⟨_, rfl⟩ | ⟨h', _⟩ | ⟨h', _⟩ | ⟨h', _⟩)
      · rfl
      all_goals omega
  · rename_i h
    rw [headerLoopE_error]
    constructor
    · rintro (h' | ⟨_, h'⟩ | h')
      · exact Or.inr (Or.inl ⟨by omega, h'⟩)
      · exact Or.inr (Or.inr (Or.inl ⟨by omega, h'⟩))
      · exact Or.inr (Or.inr (Or.inr ⟨by omega, h'⟩))
    · rintro (⟨h', _⟩ | ⟨_, h'⟩ | ⟨_, h'⟩ | ⟨_, h'⟩)
      · exact absurd h' h
      · exact Or.inl h'
      · exact Or.inr (Or.inl ⟨rfl, h'⟩)
      · exact Or.inr (Or.inr h')

theorem nonSpaceLoopE_error (s : Bytes) (e : TokErr) :
    nonSpaceLoopE s = .error e ↔ (∀ x ∈ s, x = 32) ∧ e = .eof := by
  induction s with
  | nil => simp [nonSpaceLoopE]; exact eq_comm
  | cons c r ih =>
    rw [nonSpaceLoopE]
    by_cases h : c = SP
    · rw [if_pos h, ih]; simp [h]
    · rw [if_neg h]
      constructor
      · intro h'; cases h'
      · rintro ⟨h', _⟩; exact absurd (h' c (by simp)) h

/-- **C94.** `NextNonSpace` reports empty data, else a byte other than a space at the beginning, else the end of the data. -/
theorem C94_space_error (data : Bytes) (e : TokErr) :
    nextNonSpaceE data = .error e ↔
      (data = [] ∧ e = .length []) ∨ ((∃ c r, data = c :: r ∧ c ≠ 32) ∧ e = .nonSpace) ∨
      (data ≠ [] ∧ (∀ x ∈ data, x = 32) ∧ e = .eof) := by
  unfold nextNonSpaceE
  cases data with
  | nil => simp; exact eq_comm
  | cons c r =>
    simp only
    by_cases h : c = SP
    · rw [if_neg (by simpa using h), nonSpaceLoopE_error]
      constructor
      · intro h'; exact Or.inr (Or.inr ⟨by simp, h'⟩)
      · rintro (⟨h', _⟩ | ⟨⟨c', r', h', hc⟩, _⟩ | ⟨_, h'⟩)
        · cases h'
        · simp only [List.cons.injEq] at h'; exact absurd (h'.1 ▸ h) hc
        · exact h'
    · rw [if_pos h]
      constructor
      · intro h'; simp only [Except.error.injEq] at h'; exact Or.inr (Or.inl ⟨⟨c, r, rfl, h⟩, h'.symm⟩)
      · rintro (⟨h', _⟩ | ⟨_, rfl⟩ | ⟨_, h', _⟩)
        · cases h'
        · rfl
        · exact absurd (h' c (by simp)) h

theorem ValueBytes.cases_cons {c : UInt8} {r : Bytes} (h : ValueBytes (c :: r)) :
    (c = 92 ∧ ∃ d r2, r = d :: r2 ∧ ValueBytes r2) ∨ (c ≠ 92 ∧ c ≠ 34 ∧ c ≠ 93 ∧ ValueBytes r) := by
  cases h with
  | pair h => exact Or.inl ⟨rfl, _, _, rfl, h⟩
  | byte h1 h2 h3 h => exact Or.inr ⟨h1, h2, h3, h⟩

theorem sdValueLoopE_error (pre s : Bytes) (e : TokErr) :
    sdValueLoopE pre s = .error e ↔
      (∃ p r, s = p ++ 93 :: r ∧ ValueBytes p ∧ e = .char 93) ∨
      (∃ p, s = p ++ [92] ∧ ValueBytes p ∧ e = .char 92) ∨
      (ValueBytes s ∧ e = .eof) := by
  induction hn : s.length using Nat.strongRecOn generalizing s pre with
  | _ n ih =>
    cases s with
    | nil =>
      rw [sdValueLoopE]
      constructor
      · intro h; simp only [Except.error.injEq] at h; exact Or.inr (Or.inr ⟨.nil, h.symm⟩)
      · rintro (⟨p, r, h, _⟩ | ⟨p, h, _⟩ | ⟨_, rfl⟩)
        · simp at h
        · simp at h
        · rfl
    | cons c r =>
      rw [sdValueLoopE.eq_def]
      simp only
      by_cases h1 : c = BSL
      · rw [if_pos h1]
        cases r with
        | nil =>
          simp only
          constructor
          · intro h
            simp only [Except.error.injEq] at h
            exact Or.inr (Or.inl ⟨[], by rw [h1]; rfl, .nil, by rw [← h, h1]⟩)
          · rintro (⟨p, r, h, hv, _⟩ | ⟨p, h, hv, rfl⟩ | ⟨h, _⟩)
            · cases p with
              | nil => simp at h; rw [h1] at h; exact absurd h.1 (by decide)
              | cons x p => simp at h
            · rw [h1]
            · rcases ValueBytes.cases_cons h with ⟨_, d, r2, h', _⟩ | ⟨h', _⟩
              · cases h'
              · exact absurd h1 h'
        | cons d r2 =>
          simp only
          rw [ih _ (by subst hn; simp; omega) _ _ rfl]
          constructor
          · rintro (⟨p, r, h, hv, he⟩ | ⟨p, h, hv, he⟩ | ⟨h, he⟩)
            · exact Or.inl ⟨92 :: d :: p, r, by rw [h, h1]; rfl, .pair hv, he⟩
            · exact Or.inr (Or.inl ⟨92 :: d :: p, by rw [h, h1]; rfl, .pair hv, he⟩)
            · exact Or.inr (Or.inr ⟨by rw [h1]; exact .pair h, he⟩)
          · rintro (⟨p, r, h, hv, he⟩ | ⟨p, h, hv, he⟩ | ⟨h, he⟩)
            · cases p with
              | nil => simp at h; rw [h1] at h; exact absurd h.1 (by decide)
              | cons x p =>
                simp only [List.cons_append, List.cons.injEq] at h
                rcases ValueBytes.cases_cons hv with ⟨_, d', r', rfl, hv'⟩ | ⟨h', _⟩
                · simp only [List.cons_append, List.cons.injEq] at h
                  exact Or.inl ⟨r', r, h.2.2, hv', he⟩
                · exact absurd (h.1 ▸ h1) h'
            · cases p with
              | nil => simp at h
              | cons x p =>
                simp only [List.cons_append, List.cons.injEq] at h
                rcases ValueBytes.cases_cons hv with ⟨_, d', r', rfl, hv'⟩ | ⟨h', _⟩
                · simp only [List.cons_append, List.cons.injEq] at h
                  exact Or.inr (Or.inl ⟨r', h.2.2, hv', he⟩)
                · exact absurd (h.1 ▸ h1) h'
            · rcases ValueBytes.cases_cons h with ⟨_, d', r', h', hv'⟩ | ⟨h', _⟩
              · simp only [List.cons.injEq] at h'
                exact Or.inr (Or.inr ⟨h'.2 ▸ hv', he⟩)
              · exact absurd h1 h'
      · rw [if_neg h1]
        by_cases h2 : c = RBRK
        · rw [if_pos h2]
          constructor
          · intro h
            simp only [Except.error.injEq] at h
            exact Or.inl ⟨[], r, by rw [h2]; rfl, .nil, by rw [← h, h2]⟩
          · rintro (⟨p, r, h, hv, rfl⟩ | ⟨p, h, hv, _⟩ | ⟨h, _⟩)
            · rw [h2]
            · cases p with
              | nil => simp at h; exact absurd h.1 h1
              | cons x p =>
                simp only [List.cons_append, List.cons.injEq] at h
                rcases ValueBytes.cases_cons hv with ⟨h', _⟩ | ⟨_, _, h', _⟩
                · exact absurd (h.1.trans h') h1
                · exact absurd (h.1.symm.trans h2) h'
            · rcases ValueBytes.cases_cons h with ⟨h', _⟩ | ⟨_, _, h', _⟩
              · exact absurd h' h1
              · exact absurd h2 h'
        · rw [if_neg h2]
          by_cases h3 : c = DQ
          · rw [if_pos h3]
            constructor
            · intro h; cases h
            · rintro (⟨p, r, h, hv, rfl⟩ | ⟨p, h, hv, _⟩ | ⟨h, _⟩)
              · cases p with
                | nil => simp at h; exact absurd h.1 h2
                | cons x p =>
                  simp only [List.cons_append, List.cons.injEq] at h
                  rcases ValueBytes.cases_cons hv with ⟨h', _⟩ | ⟨_, h', _⟩
                  · exact absurd (h.1.trans h') h1
                  · exact absurd (h.1.symm.trans h3) h'
              · cases p with
                | nil => simp at h; exact absurd h.1 h1
                | cons x p =>
                  simp only [List.cons_append, List.cons.injEq] at h
                  rcases ValueBytes.cases_cons hv with ⟨h', _⟩ | ⟨_, h', _⟩
                  · exact absurd (h.1.trans h') h1
                  · exact absurd (h.1.symm.trans h3) h'
              · rcases ValueBytes.cases_cons h with ⟨h', _⟩ | ⟨_, h', _⟩
                · exact absurd h' h1
                · exact absurd h3 h'
          · rw [if_neg h3, ih _ (by subst hn; simp) _ _ rfl]
            constructor
            · rintro (⟨p, r, h, hv, he⟩ | ⟨p, h, hv, he⟩ | ⟨h, he⟩)
              · exact Or.inl ⟨c :: p, r, by rw [h]; rfl, .byte h1 h3 h2 hv, he⟩
              · exact Or.inr (Or.inl ⟨c :: p, by rw [h]; rfl, .byte h1 h3 h2 hv, he⟩)
              · exact Or.inr (Or.inr ⟨.byte h1 h3 h2 h, he⟩)
            · rintro (⟨p, r, h, hv, he⟩ | ⟨p, h, hv, he⟩ | ⟨h, he⟩)
              · cases p with
                | nil => simp at h; exact absurd h.1 h2
                | cons x p =>
                  simp only [List.cons_append, List.cons.injEq] at h
                  rcases ValueBytes.cases_cons hv with ⟨h', _⟩ | ⟨_, _, _, hv'⟩
                  · exact absurd (h.1.trans h') h1
                  · exact Or.inl ⟨p, r, h.2, hv', he⟩
              · cases p with
                | nil => simp at h; exact absurd h.1 h1
                | cons x p =>
                  simp only [List.cons_append, List.cons.injEq] at h
                  rcases ValueBytes.cases_cons hv with ⟨h', _⟩ | ⟨_, _, _, hv'⟩
                  · exact absurd (h.1.trans h') h1
                  · exact Or.inr (Or.inl ⟨p, h.2, hv', he⟩)
              · rcases ValueBytes.cases_cons h with ⟨h', _⟩ | ⟨_, _, _, hv'⟩
                · exact absurd h' h1
                · exact Or.inr (Or.inr ⟨hv', he⟩)

/-- **C94.** `NextSDValue` reports data shorter than 2 bytes, else a missing opening quote, else a `]` in the value, a
`\` at the end of the data, or the end of the data. -/
theorem C94_value_error (data : Bytes) (e : TokErr) :
    nextSDValueE data = .error e ↔
      (data.length < 2 ∧ e = .length data) ∨
      (2 ≤ data.length ∧ (∃ c r, data = c :: r ∧ c ≠ 34) ∧ e = .noQuote data) ∨
      (2 ≤ data.length ∧ ∃ s, data = 34 :: s ∧
        ((∃ p r, s = p ++ 93 :: r ∧ ValueBytes p ∧ e = .char 93) ∨
         (∃ p, s = p ++ [92] ∧ ValueBytes p ∧ e = .char 92) ∨ (ValueBytes s ∧ e = .eof))) := by
  unfold nextSDValueE
  split
  · rename_i h
    constructor
    · intro he; simp only [Except.error.injEq] at he; exact Or.inl ⟨h, he.symm⟩
    · rintro (⟨_, rfl⟩ | ⟨h', _⟩ | ⟨h', _⟩)
      · rfl
      all_goals omega
  · rename_i h
    cases data with
    | nil => simp at h
    | cons c s =>
      simp only
      by_cases hc : c = DQ
      · rw [if_neg (by simpa using hc), sdValueLoopE_error]
        constructor
        · intro h'
          exact Or.inr (Or.inr ⟨by omega, s, by rw [hc], h'⟩)
        · rintro (⟨h', _⟩ | ⟨_, ⟨c', r', h', hc'⟩, _⟩ | ⟨_, s', h', hs⟩)
          · exact absurd h' h
          · simp only [List.cons.injEq] at h'; exact absurd (h'.1 ▸ hc) hc'
          · simp only [List.cons.injEq] at h'; rw [h'.2]; exact hs
      · rw [if_pos hc]
        constructor
        · intro h'; simp only [Except.error.injEq] at h'
          exact Or.inr (Or.inl ⟨by omega, ⟨c, s, rfl, hc⟩, h'.symm⟩)
        · rintro (⟨h', _⟩ | ⟨_, _, rfl⟩ | ⟨_, s', h', hs⟩)
          · exact absurd h' h
          · rfl
          · simp only [List.cons.injEq] at h'; exact absurd h'.1 hc

/-! ## the other errors print what they were given as it is -/

theorem unmarshal_badFormat {p : Priority} {d : Bytes} {e : Err} (h : (Priority.unmarshal p d).2 = some e) : e = .badFormat := by
  unfold Priority.unmarshal at h
  simp only at h
  repeat' split at h
  all_goals first
    | (simp only [Option.some.injEq] at h; exact h.symm)
    | (simp at h)

theorem set_invalid {p : Priority} {d : Bytes} {e : Err} (h : (Priority.set p d).2 = some e) : e = .invalidFacSev := by
  unfold Priority.set at h
  repeat' split at h
  all_goals first
    | (simp only [Option.some.injEq] at h; exact h.symm)
    | (simp at h)

/-- **C94, violated** for the errors of `Priority.Unmarshal5424`, `Priority.Set` and `Dial`: they print the bytes they
were given as they are, -/
theorem C94_raw_texts (table : Nat → Bool) (p : Priority) (d text : Bytes) :
    (unmarshalText table p d = some text → text = b!"bad format : " ++ d) ∧
    (setText table p d = some text → text = b!"invalid syslog facility.severity [" ++ d ++ b!"]") ∧
    (∀ fd addr t e, Net.dial fd d addr t = .error e → e.text table d = some (b!"unknown network for Dial : " ++ d)) := by
  refine ⟨?_, ?_, ?_⟩
  · intro h
    unfold unmarshalText at h
    cases he : (Priority.unmarshal p d).2 with
    | none => rw [he] at h; cases h
    | some e =>
      rw [he] at h
      rw [unmarshal_badFormat he] at h
      simp only [Option.bind_some, Err.text, Option.some.injEq] at h
      exact h.symm
  · intro h
    unfold setText at h
    cases he : (Priority.set p d).2 with
    | none => rw [he] at h; cases h
    | some e =>
      rw [he] at h
      rw [set_invalid he] at h
      simp only [Option.bind_some, Err.text, Option.some.injEq] at h
      exact h.symm
  · intro fd addr t e h
    unfold Net.dial at h
    simp only at h
    repeat' split at h
    all_goals first
      | (simp only [Except.error.injEq] at h; subst h; rfl)
      | cases h

/-- **C94, violated**: so that a line break in them is a line break in the text. -/
theorem C94_raw_violated (table : Nat → Bool) :
    (∃ d text, unmarshalText table 0 d = some text ∧ ¬ Printable text) ∧
    (∃ d text, setText table 0 d = some text ∧ ¬ Printable text) ∧
    (∃ d e text, Net.dial 0 d [] none = .error e ∧ e.text table d = some text ∧ ¬ Printable text) := by
  have hp : ∀ {t : Bytes}, (10 : UInt8) ∈ t → ¬ Printable t := fun hm h => by
    have := (h.bytes _ hm).1
    simp at this
  refine ⟨⟨b!"<1\n", _, rfl, hp (by decide)⟩, ⟨b!"\n<0>1 forged", _, rfl, hp (by decide)⟩,
    ⟨b!"udp\n<0>1 forged", _, _, rfl, rfl, hp (by decide)⟩⟩

/-! ## examples -/

/-- A message with a stray bracket, a line break and bytes that are not UTF-8: the text is one line. -/
example : parseText (fun _ => false) (some ⟨b!"<34>1 - h a p m [x y] \n\x80é", []⟩) none true =
    .ret (some b!"{\"<34>1 - h a p m [x y] \\n\\u0080é\"} 19 \\\\ or \" expected") := by decide +kernel

example : parseText (fun _ => false) (some ⟨b!"<34>1 - h a p m x t" ++ [0xFF, 0], []⟩) (some .lfEnded) true =
    .ret (some b!"{\"<34>1 - h a p m x t\\xff\\x00\"} 16 empty structured data expected") := by decide +kernel

example : nextSDNameE b!"ab\ncd" = .error (.char 10) := by decide +kernel
example : nextSDValueE b!"\"a\\]b]\"" = .error (.char 93) := by decide +kernel
example : TokErr.text (fun _ => false) (.char 10) = b!"invalid char 10" := by decide +kernel

end Syslog5424
