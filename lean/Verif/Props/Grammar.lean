import Verif.Lemmas.RoundTrip
import Verif.Spec.Rfc5424
/-! # Property C08: the RFC 5424 grammar of marshalled messages -/
namespace Syslog5424
open Spec

theorem padNat_digitsOf {w x : Nat} (hw : 0 < w) (h : x < 10 ^ w) : DigitsOf w x (Time.padNat w x) :=
  ⟨Time.padNat_length hw h, Time.padNat_digits w x, by rw [← decVal_eq_value]; exact Time.decVal_padNat w x⟩

theorem fmtFrac_secFrac {n : Nat} (h : n < 10 ^ 9) : SecFrac (n / 1000) (Time.fmtFrac n) := by
  unfold Time.fmtFrac
  by_cases h0 : n = 0
  · rw [if_pos h0]; exact Or.inl ⟨rfl, by subst h0; rfl⟩
  rw [if_neg h0]
  obtain ⟨hv, hl⟩ := Time.take6_pad9 h
  obtain ⟨k, hk⟩ := Time.trimZeros_spec ((Time.padNat 9 n).take 6)
  have hdig : ∀ d ∈ (Time.padNat 9 n).take 6, IsDigit d := fun d hd => Time.padNat_digits _ _ d (List.mem_of_mem_take hd)
  simp only
  generalize hds : Time.trimZeros ((Time.padNat 9 n).take 6) = ds at hk
  rw [hk] at hv hl hdig
  rw [Time.decVal_append, Time.decVal_zeros, List.length_replicate] at hv
  have hk6 : k = 6 - ds.length := by simp at hl; omega
  by_cases hd : ds = []
  · rw [if_pos hd]
    left
    subst hd
    refine ⟨rfl, ?_⟩
    simp [decVal] at hv
    omega
  · rw [if_neg hd]
    right
    refine ⟨ds, rfl, List.length_pos_iff.mpr hd, by simp at hl; omega, fun c hc => hdig c (by simp [hc]), ?_⟩
    rw [← decVal_eq_value, ← hk6]; omega

theorem fmtZone_offset {off : Int} (h1 : -86400 < off) (h2 : off < 86400) (h3 : off % 60 = 0) :
    TimeOffset (off / 60) (Time.fmtZone off) := by
  unfold Time.fmtZone
  by_cases h0 : off = 0
  · rw [if_pos h0]; subst h0; exact Or.inl ⟨rfl, rfl⟩
  rw [if_neg h0]
  right
  have hz : off.tdiv 60 = off / 60 := by
    have h : off = 60 * (off / 60) := by omega
    have e : off.tdiv 60 = (60 * (off / 60)).tdiv 60 := by rw [← h]
    rw [e, Int.mul_tdiv_cancel_left _ (by decide)]
  rw [hz]
  simp only
  generalize hq : off / 60 = q
  have hq1 : -1440 < q := by omega
  have hq2 : q < 1440 := by omega
  refine ⟨if q < 0 then 45 else 43, q.natAbs / 60, q.natAbs % 60, Time.padNat 2 (q.natAbs / 60), Time.padNat 2 (q.natAbs % 60), ?_,
    padNat_digitsOf (by decide) (by omega), padNat_digitsOf (by decide) (by omega), by omega, by omega, ?_⟩
  · simp
  · by_cases hs : q < 0
    · right; rw [if_pos hs]; exact ⟨rfl, by omega⟩
    · left; rw [if_neg hs]; exact ⟨rfl, by omega⟩

theorem format_timestamp {t : Time} (h : t.Valid) (h1 : -86400 < t.off) (h2 : t.off < 86400) :
    Timestamp t.year.toNat t.month t.day t.hour t.minute t.second (t.nsec / 1000) (t.off / 60) t.format := by
  have hd31 : monthDays t.month t.year.toNat ≤ 31 := by
    unfold monthDays; split
    · split <;> omega
    · split <;> omega
  have := h.day
  have := h.month
  have := h.year
  refine ⟨_, _, _, _, _, _, _, _, ?_, padNat_digitsOf (w := 4) (by decide) (by omega), padNat_digitsOf (w := 2) (by decide) (by omega),
    h.month.1, h.month.2, padNat_digitsOf (w := 2) (by decide) (by omega), h.day.1, h.day.2,
    padNat_digitsOf (w := 2) (by decide) (by have := h.hour; omega), by have := h.hour; omega,
    padNat_digitsOf (w := 2) (by decide) (by have := h.minute; omega), by have := h.minute; omega,
    padNat_digitsOf (w := 2) (by decide) (by have := h.second; omega), by have := h.second; omega,
    fmtFrac_secFrac h.nsec, fmtZone_offset h1 h2 h.off.2.2⟩
  have hy : Time.padInt 4 t.year = Time.padNat 4 t.year.toNat := by
    unfold Time.padInt; rw [if_neg (by omega)]
  simp only [Time.format, hy]

/-- C08: for every message with an RFC priority, valid header fields, a date and time with a four digit year and
an offset of whole minutes below 24 hours, and structured data elements in the RFC grammar, `Marshal5424` returns
bytes in the RFC grammar, with exactly these values. (The RFC also forbids two elements with the same identifier
and recommends UTF-8 texts; nothing in the code looks at that.) -/
theorem C08_grammar (m : Message) (hprio : 0 ≤ (m.prio : Int) ∧ (m.prio : Int) ≤ 191)
    (hhost : ValidField 255 m.hostname) (happ : ValidField 48 m.appname) (hpid : ValidField 128 m.procid)
    (hmid : ValidField 32 m.msgid) (ht : m.timestamp.Valid) (ho1 : -86400 < m.timestamp.off) (ho2 : m.timestamp.off < 86400)
    (xs : List Bytes) (hsd : m.sd.map SD.marshal = xs.map fun x => .ret (.ok x)) (hx : ∀ x ∈ xs, SdElement x) :
    ∃ b ts sd, m.marshal = .ret (.ok b) ∧
      Timestamp m.timestamp.year.toNat m.timestamp.month m.timestamp.day m.timestamp.hour m.timestamp.minute
        m.timestamp.second (m.timestamp.nsec / 1000) (m.timestamp.off / 60) ts ∧
      (m.sd = [] ∧ sd = b!"-" ∨ m.sd ≠ [] ∧ sd = xs.flatten) ∧
      SyslogMsg (m.prio : Int).toNat ts m.hostname m.appname m.procid m.msgid sd
        (if m.message = [] then none else some m.message) b := by
  obtain ⟨ds, hdec, hpri⟩ := C01_marshal_format m.prio hprio.1 (Int.le_trans hprio.2 (by decide))
  have hlist : ∃ sd, sdListMarshal m.sd = .ret (.ok sd) ∧ (m.sd = [] ∧ sd = b!"-" ∨ m.sd ≠ [] ∧ sd = xs.flatten) ∧ StructuredData sd := by
    by_cases hne : m.sd = []
    · exact ⟨b!"-", by rw [hne]; rfl, Or.inl ⟨hne, rfl⟩, Or.inl rfl⟩
    · refine ⟨xs.flatten, C25_concat m.sd _ hne hsd, Or.inr ⟨hne, rfl⟩, Or.inr ⟨xs, ?_, hx, rfl⟩⟩
      rintro rfl
      simp at hsd
      exact hne hsd
  obtain ⟨sd, h1, h2, h3⟩ := hlist
  refine ⟨_, m.timestamp.format, sd, marshal_eq m sd h1, format_timestamp ht ho1 ho2, h2,
    ds, hdec, Int.toNat_le.mpr hprio.2, hhost, happ, hpid, hmid, h3, ?_⟩
  by_cases hm : m.message = []
  · simp [hm, headerText, wireFields, hpri]
  · simp [hm, headerText, wireFields, hpri]

/-- C08: what the constructors and setters of the API store always satisfies the hypotheses on the header
(see also C06): for `CreateWholeMessage` only the priority and the timestamp are left to the caller. -/
theorem C08_created (prio : Int) (hprio : 0 ≤ prio ∧ prio ≤ 191) (ts : Time) (ht : ts.Valid) (ho1 : -86400 < ts.off)
    (ho2 : ts.off < 86400) (host app pid mid text : Bytes) :
    ∃ b tsb host' app' pid' mid' text', (Message.createWhole prio ts host app pid mid text).marshal = .ret (.ok b) ∧
      IsSanitised 255 host host' ∧ IsSanitised 48 app app' ∧ IsSanitised 128 pid pid' ∧ IsSanitised 32 mid mid' ∧
      IsTrimOf text' text ∧
      Timestamp ts.year.toNat ts.month ts.day ts.hour ts.minute ts.second (ts.nsec / 1000) (ts.off / 60) tsb ∧
      SyslogMsg prio.toNat tsb host' app' pid' mid' b!"-" (if text' = [] then none else some text') b := by
  obtain ⟨b, tsb, sd, h1, h2, h3, h4⟩ := C08_grammar (Message.createWhole prio ts host app pid mid text) hprio
    (validator_valid host (by decide)) (validator_valid app (by decide)) (validator_valid pid (by decide))
    (validator_valid mid (by decide)) ht ho1 ho2 [] rfl (by simp)
  rcases h3 with ⟨_, rfl⟩ | ⟨h, _⟩
  · exact ⟨b, tsb, _, _, _, _, _, h1, validator_sanitised host 255, validator_sanitised app 48, validator_sanitised pid 128,
      validator_sanitised mid 32, trim_spec text, h2, h4⟩
  · exact absurd rfl h

/-- A message that meets the hypotheses, and its bytes. -/
def grammarExample : Message :=
  { Message.createWhole 165 ⟨2003, 10, 11, 22, 14, 15, 3000789, -25200⟩ b!"host.example" b!"app" b!"123" b!"ID47" b!"hello" with
    sd := [.unknown b!"x@1" [(b!"a", b!"1")], .tq ⟨false, false, none⟩] }

example : grammarExample.marshal = .ret (.ok
    b!"<165>1 2003-10-11T22:14:15.003-07:00 host.example app 123 ID47 [x@1 a=\"1\"][timeQuality] hello") := by decide +kernel
example : grammarExample.sd.map SD.marshal = [b!"[x@1 a=\"1\"]", b!"[timeQuality]"].map (fun x => .ret (.ok x)) ∧
    ∀ x ∈ [b!"[x@1 a=\"1\"]", b!"[timeQuality]"], SdElement x := by
  refine ⟨by decide +kernel, ?_⟩
  intro x hx
  simp only [List.mem_cons, List.not_mem_nil, or_false] at hx
  rcases hx with rfl | rfl
  · refine ⟨b!"x@1", [(b!"a", b!"1")], rfl, by decide +kernel, ?_⟩
    intro p hp
    simp only [List.mem_cons, List.not_mem_nil, or_false] at hp
    subst hp
    exact ⟨by decide +kernel, .byte (by decide) (by decide) (by decide) .nil⟩
  · exact ⟨b!"timeQuality", [], rfl, by decide +kernel, by simp⟩
example : grammarExample.timestamp.Valid ∧ -86400 < grammarExample.timestamp.off ∧ grammarExample.timestamp.off < 86400 := by
  refine ⟨?_, by decide, by decide⟩
  constructor <;> decide

/-- C08, outside the hypotheses: the encoder does not check parameter names, so a map key with a space or a
bracket leaves the grammar (one parameter becomes two; a bracket ends the element). -/
theorem C08_bad_key :
    marshalSD (.map (some b!"x") (.scalar true) (some [(b!"a=\"1\" b", b!"2")])) = .ret b!"[x a=\"1\" b=\"2\"]" ∧
    marshalSD (.map (some b!"x") (.scalar true) (some [(b!"a]", b!"2")])) = .ret b!"[x a]=\"2\"]" := by decide +kernel

end Syslog5424
