import Verif.Props.RoundTrip
/-! # Property C19: one log call is one received message -/
namespace Syslog5424
open Spec Transport

/-- C19: over the RFC 5425 transport, whatever the payload (any text, any structured data), the receiving side
sees one frame: `Parse` gives either the message made of exactly the payload or an error, and continues exactly
behind the frame. -/
theorem C19_rfc5425_one_frame (d suffix spare : Bytes) (atEOF : Bool) (hd : d.length + 20 < 2 ^ 63)
    (h20 : 20 ≤ (rfc5425.encode d ++ suffix).length) :
    ∃ p e, parse (some ⟨rfc5425.encode d ++ suffix, spare⟩) (some .rfc5425) atEOF = .ret (p, some ⟨suffix, spare⟩, e) ∧
      (e = none ∧ p.string = d ∨ e ≠ none ∧ p = MsgImm.zero) := by
  have e : rfc5425.encode d ++ suffix = natDec d.length ++ SP :: (d ++ suffix) := by simp [encode]
  rw [e] at h20 ⊢
  unfold parse
  simp only
  rw [prefixStrip_5425_frame d suffix spare atEOF hd h20]
  simp only [Out.ret_bind]
  rw [if_neg (by simp)]
  rcases parseBody_rest ⟨d, suffix ++ spare⟩ ⟨suffix, spare⟩ atEOF with ⟨e, h⟩ | ⟨fs, xs, o, idx, txt, _, h⟩
  · exact ⟨_, _, h, Or.inr ⟨by simp, rfl⟩⟩
  · exact ⟨_, _, h, Or.inl ⟨rfl, rfl⟩⟩

/-- C19: over RFC 5425 a message with a valid header and any text (no structured data) is received as itself. -/
theorem C19_rfc5425_any_text (m : Message) (h : GoodMsg m) (hsd : m.sd = []) (suffix spare : Bytes) (atEOF : Bool) :
    ∃ b, m.marshal = .ret (.ok b) ∧ (b.length + 20 < 2 ^ 63 →
      ∃ p, parse (some ⟨rfc5425.encode b ++ suffix, spare⟩) (some .rfc5425) atEOF = .ret (p, some ⟨suffix, spare⟩, none) ∧
        p.string = b ∧ ReadBack p m) := by
  obtain ⟨b, idx, txt, hb, hL⟩ := layout_dash h hsd
  refine ⟨b, hb, fun hlen => ?_⟩
  have h20 : 20 ≤ (rfc5425.encode b ++ suffix).length := by
    have hs : sdListMarshal m.sd = .ret (.ok b!"-") := by rw [hsd]; rfl
    have e := marshal_eq m _ hs
    rw [hb] at e
    simp only [Out.ret.injEq, Except.ok.injEq] at e
    have := Time.format_length m.timestamp
    have hbl : 20 ≤ b.length := by
      rw [e]; simp only [headerText, wireFields, List.flatMap_cons, List.length_append]; omega
    simp only [encode, List.length_append]; omega
  have hv := Layout.view (data := ⟨b, suffix ++ spare⟩) hL
  exact ⟨_, parse_5425_frame b suffix spare atEOF hlen h20 hL, rfl, readBack h hv⟩

/-- C19 (partial): the terminator never comes from a sanitised header field, from the priority or from the
timestamp: a marshalled message contains the terminator of the LF or NUL transport only if its text or its
structured data contains it, so the encoded frame contains it exactly once. Missing: texts that contain it, see
`C19_terminator_violated`. -/
theorem C19_terminated_partial (m : Message) (h : GoodMsg m) (c : UInt8) (hc : c = 10 ∨ c = 0) (b sd : Bytes)
    (hb : m.marshal = .ret (.ok b)) (hsd : sdListMarshal m.sd = .ret (.ok sd)) (h1 : c ∉ m.message) (h2 : c ∉ sd) :
    c ∉ b := by
  rw [marshal_eq m sd hsd] at hb
  simp only [Out.ret.injEq, Except.ok.injEq] at hb
  rw [← hb]
  have hprint : ∀ {n : Nat} {f : Bytes}, ValidField n f → c ∉ f := by
    intro n f hf hm
    have := (hf.2.2 c hm).1
    rcases hc with rfl | rfl <;> exact absurd this (by decide)
  have hts : c ∉ m.timestamp.format := by
    intro hm
    have := (Time.format_print m.timestamp c hm).1
    rcases hc with rfl | rfl <;> exact absurd this (by decide)
  have hpri : c ∉ Priority.marshal m.prio := by
    obtain ⟨ds, hd, he⟩ := C01_marshal_format m.prio h.prio.1 h.prio.2
    rw [he]
    intro hm
    simp only [List.mem_append, List.mem_cons, List.not_mem_nil, or_false] at hm
    rcases hc with rfl | rfl
    · rcases hm with (hm | hm) | hm | hm
      · exact absurd hm (by decide)
      · exact absurd (hd.2.1 _ hm) (by decide)
      · exact absurd hm (by decide)
      · exact absurd hm (by decide)
    · rcases hm with (hm | hm) | hm | hm
      · exact absurd hm (by decide)
      · exact absurd (hd.2.1 _ hm) (by decide)
      · exact absurd hm (by decide)
      · exact absurd hm (by decide)
  have hsp : c ≠ 32 := by rcases hc with rfl | rfl <;> decide
  have e1 := hprint h.host
  have e2 := hprint h.app
  have e3 := hprint h.pid
  have e4 := hprint h.mid
  intro hm
  split at hm
  · simp [headerText, wireFields, hpri, hts, e1, e2, e3, e4, hsp, h2] at hm
  · simp [headerText, wireFields, hpri, hts, e1, e2, e3, e4, hsp, h1, h2] at hm

/-- C19 (partial): over the LF and NUL transports, a message without structured data whose text is not empty and
does not contain the terminator is received as itself, whatever follows. -/
theorem C19_terminated_received_partial (t : Transport) (c : UInt8) (ht : t = .lfEnded ∧ c = 10 ∨ t = .zeroEnded ∧ c = 0)
    (m : Message) (h : GoodMsg m) (hsd : m.sd = []) (hne : m.message ≠ []) (hc : c ∉ m.message) (suffix spare : Bytes)
    (atEOF : Bool) :
    ∃ b p, m.marshal = .ret (.ok b) ∧
      parse (some ⟨t.encode b ++ suffix, spare⟩) (some t) atEOF = .ret (p, some ⟨suffix, spare⟩, none) ∧
      p.string = b ∧ ReadBack p m := by
  have hterm : t.term = some c := by rcases ht with ⟨rfl, rfl⟩ | ⟨rfl, rfl⟩ <;> rfl
  have hs : sdListMarshal m.sd = .ret (.ok b!"-") := by rw [hsd]; rfl
  have e := marshal_eq m _ hs
  rw [if_neg hne] at e
  have henc : ∀ d : Bytes, t.encode d = d ++ [c] := by
    rcases ht with ⟨rfl, rfl⟩ | ⟨rfl, rfl⟩ <;> (intro d; rfl)
  have hL := Layout.dashText (t := m.message ++ c :: suffix) (rfl : (wireFields m).length = 6) h.raw
  obtain ⟨pre, h1, h2, h3⟩ := parse_term_frame hterm
    ⟨headerText (wireFields m) ++ [DASH, SP] ++ (m.message ++ c :: suffix), spare⟩ atEOF (p := m.message) (q := suffix) hL hc
  have hpre : pre = headerText (wireFields m) ++ [DASH] := by
    have : (headerText (wireFields m) ++ [DASH]) ++ (SP :: (m.message ++ c :: suffix)) = pre ++ (SP :: (m.message ++ c :: suffix)) := by
      rw [← h1]; simp
    exact (List.append_cancel_right this).symm
  subst hpre
  refine ⟨_, _, e, ?_, ?_, readBack h (by rw [if_neg hne]; exact h2)⟩
  · rw [henc]
    have e2 : headerText (wireFields m) ++ b!"-" ++ SP :: m.message ++ [c] ++ suffix =
        headerText (wireFields m) ++ [DASH, SP] ++ (m.message ++ c :: suffix) := by simp
    rw [e2]
    exact h3
  · rfl

/-- C19 is violated: over the LF and NUL transports, everything that follows a terminator inside the text is
taken for the next message of the stream. -/
theorem C19_terminator_violated (t : Transport) (c : UInt8) (ht : t = .lfEnded ∧ c = 10 ∨ t = .zeroEnded ∧ c = 0)
    (m : Message) (h : GoodMsg m) (hsd : m.sd = []) (t1 t2 : Bytes) (hm : m.message = t1 ++ [c] ++ t2) (hc : c ∉ t1)
    (suffix spare : Bytes) (atEOF : Bool) :
    ∃ b p, m.marshal = .ret (.ok b) ∧
      parse (some ⟨t.encode b ++ suffix, spare⟩) (some t) atEOF = .ret (p, some ⟨t.encode t2 ++ suffix, spare⟩, none) ∧
      p.textOf = .ret t1 := by
  have hterm : t.term = some c := by rcases ht with ⟨rfl, rfl⟩ | ⟨rfl, rfl⟩ <;> rfl
  have hs : sdListMarshal m.sd = .ret (.ok b!"-") := by rw [hsd]; rfl
  have e := marshal_eq m _ hs
  rw [if_neg (by rw [hm]; simp)] at e
  have henc : ∀ d : Bytes, t.encode d = d ++ [c] := by
    rcases ht with ⟨rfl, rfl⟩ | ⟨rfl, rfl⟩ <;> (intro d; rfl)
  have hL := Layout.dashText (t := t1 ++ c :: (t2 ++ [c] ++ suffix)) (rfl : (wireFields m).length = 6) h.raw
  obtain ⟨pre, h1, h2, h3⟩ := parse_term_frame hterm
    ⟨headerText (wireFields m) ++ [DASH, SP] ++ (t1 ++ c :: (t2 ++ [c] ++ suffix)), spare⟩ atEOF (p := t1) (q := t2 ++ [c] ++ suffix) hL hc
  have htx := h2.textOf
  refine ⟨_, _, e, ?_, htx⟩
  · rw [henc, henc]
    have e2 : headerText (wireFields m) ++ b!"-" ++ SP :: m.message ++ [c] ++ suffix =
        headerText (wireFields m) ++ [DASH, SP] ++ (t1 ++ c :: (t2 ++ [c] ++ suffix)) := by rw [hm]; simp
    rw [e2]
    exact h3

/-- C19 is violated, concretely: a text given to `Msg` forges a second message. -/
theorem C19_forged_violated :
    ∃ b r p1 p2, (Message.empty.setMsg b!"hi\n<0>1 - - - - - - forged").marshal = .ret (.ok b) ∧
      parse (some (.exact (lfEnded.encode b))) (some .lfEnded) true = .ret (p1, some r, none) ∧ p1.textOf = .ret b!"hi" ∧
      parse (some r) (some .lfEnded) true = .ret (p2, some (.exact []), none) ∧ p2.textOf = .ret b!"forged" := by
  refine ⟨b!"<0>1 1970-01-01T00:00:00Z - - - - - hi\n<0>1 - - - - - - forged", .exact b!"<0>1 - - - - - - forged\n",
    ⟨⟨b!"<0>1 1970-01-01T00:00:00Z - - - - - hi", b!"\n<0>1 - - - - - - forged\n"⟩, [4, 25, 27, 29, 31, 33, 35], 36⟩,
    ⟨⟨b!"<0>1 - - - - - - forged", b!"\n"⟩, [4, 6, 8, 10, 12, 14, 16], 17⟩, ?_⟩
  decide +kernel

example : ∃ m : Message, GoodMsg m ∧ m.sd = [] ∧ m.message = b!"two words" ∧ (10 : UInt8) ∉ m.message :=
  ⟨Message.empty.setMsg b!"two words", by constructor <;> decide +kernel, rfl, by decide +kernel, by decide +kernel⟩

end Syslog5424
