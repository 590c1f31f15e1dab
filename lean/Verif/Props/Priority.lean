import Verif.Lemmas.Priority
import Verif.Spec.Priority
/-! # Properties C01 to C04: priorities -/
namespace Syslog5424

/-! ## C01 -/

theorem marshal_table : ∀ n : Fin 300,
    Priority.marshal ((n.val : Nat) : Int) = [60] ++ natDec n.val ++ [62, 49] := by decide +kernel

theorem marshal_table_bad : ∀ n : Fin 700,
    (Priority.unmarshal 0 (Priority.marshal (((n.val + 300 : Nat) : Int)))).1 ≠ ((n.val + 300 : Nat) : Int) := by
  decide +kernel

/-- C01: the encoder writes `<`, the decimal notation of the value, `>1`. -/
theorem C01_marshal_format (p : Int) (h0 : 0 ≤ p) (h1 : p ≤ 299) :
    ∃ ds, Spec.IsDecimal p.toNat ds ∧ Priority.marshal p = b!"<" ++ ds ++ b!">1" := by
  have h := marshal_table ⟨p.toNat, by omega⟩
  simp only [Int.toNat_of_nonneg h0] at h
  exact ⟨natDec p.toNat, natDec_isDecimal _, h⟩

/-- The values a successful decoding does not depend on: the receiver. -/
theorem unmarshal_receiver {p q v : Priority} {d : Bytes} (h : Priority.unmarshal p d = (v, none)) :
    Priority.unmarshal q d = (v, none) := by
  obtain ⟨ds, rfl, h1, h3, hd, rfl⟩ := unmarshal_ok h
  exact unmarshal_complete q ds h1 h3 hd

/-- C01: decoding what was encoded gives the value back exactly for the values 0 to 299, whatever
was in the receiver. In particular it does for every RFC 5424 priority (0 to 191). -/
theorem C01_round_trip (p q : Int) :
    Priority.unmarshal q (Priority.marshal p) = (p, none) ↔ 0 ≤ p ∧ p ≤ 299 := by
  constructor
  · intro h
    obtain ⟨ds, hd, h1, h3, hdig, hv⟩ := unmarshal_ok h
    have hv : (p : Int) = (Spec.value ds : Nat) := hv
    have hlt := decVal_lt ds hdig
    rw [decVal_eq_value] at hlt
    have h1000 : (10 : Nat) ^ ds.length ≤ 10 ^ 3 := Nat.pow_le_pow_right (by omega) h3
    have hp0 : 0 ≤ p := by omega
    have hp1 : p ≤ 999 := by omega
    refine ⟨hp0, ?_⟩
    by_cases hp : p ≤ 299
    · exact hp
    · exfalso
      have hb := marshal_table_bad ⟨p.toNat - 300, by omega⟩
      have e : (((p.toNat - 300 + 300 : Nat)) : Int) = p := by omega
      simp only [e] at hb
      rw [unmarshal_receiver (q := 0) h] at hb
      exact hb rfl
  · rintro ⟨h0, h1⟩
    have h := marshal_table ⟨p.toNat, by omega⟩
    simp only [Int.toNat_of_nonneg h0] at h
    rw [h, unmarshal_complete q _ (natDec_length_pos _) (natDec_length_le (by omega) (by omega))
      (natDec_isDigit _), ← decVal_eq_value, natDec_decVal, Int.toNat_of_nonneg h0]

example : (0 : Int) ≤ 165 ∧ (165 : Int) ≤ 299 ∧ Priority.marshal 165 = b!"<165>1" ∧
    Priority.unmarshal 7 b!"<165>1" = (165, none) := by decide +kernel

/-! ## C02 -/

/-- C02: the decoder succeeds exactly on `<`, one to three digits, `>1`, and gives their value. -/
theorem C02_decoder_grammar (p v : Int) (d : Bytes) :
    Priority.unmarshal p d = (v, none) ↔
      ∃ ds : Bytes, d = b!"<" ++ ds ++ b!">1" ∧ 1 ≤ ds.length ∧ ds.length ≤ 3 ∧
        (∀ x ∈ ds, Spec.IsDigit x) ∧ v = (Spec.value ds : Nat) := by
  constructor
  · exact unmarshal_ok
  · rintro ⟨ds, rfl, h1, h3, hd, rfl⟩
    exact unmarshal_complete p ds h1 h3 hd

/-- C02: on every other input the decoder returns an error and the receiver keeps its value. -/
theorem C02_decoder_error (p : Int) (d : Bytes)
    (h : ¬ ∃ ds : Bytes, d = b!"<" ++ ds ++ b!">1" ∧ 1 ≤ ds.length ∧ ds.length ≤ 3 ∧
        (∀ x ∈ ds, Spec.IsDigit x)) :
    ∃ e, Priority.unmarshal p d = (p, some e) := by
  rcases hr : Priority.unmarshal p d with ⟨v, e⟩
  cases e with
  | none =>
    obtain ⟨ds, h1, h2, h3, h4, _⟩ := unmarshal_ok hr
    exact absurd ⟨ds, h1, h2, h3, h4⟩ h
  | some e =>
    have := unmarshal_err hr
    subst this
    exact ⟨e, rfl⟩

example : Priority.unmarshal 42 b!"<007>1" = (7, none) ∧
    Priority.unmarshal 42 b!"<7>2" = (42, some .badFormat) ∧
    Priority.unmarshal 42 b!"<0007>1" = (42, some .badFormat) := by decide +kernel

/-! ## C03 -/

/-- C03: the facility is a multiple of 8 between 0 and 248, the severity is between 0 and 7, for
every int (negative ints included). -/
theorem C03_ranges (p : Int) :
    (Priority.facility p) % 8 = 0 ∧ 0 ≤ (Priority.facility p) ∧ (Priority.facility p) ≤ 248 ∧ 0 ≤ (Priority.severity p) ∧ (Priority.severity p) ≤ 7 := by
  rw [facility_eq, severity_eq]; omega

/-- C03: on 0 to 255 both `facility | severity` and `facility + severity` give the priority back. -/
theorem C03_split (p : Int) (h0 : 0 ≤ p) (h1 : p ≤ 255) :
    Priority.or (Priority.facility p) (Priority.severity p) = p ∧ (Priority.facility p) + (Priority.severity p) = p := by
  have h := or_eq_add (f := (Priority.facility p)) (s := (Priority.severity p)) (C03_ranges p).1 (C03_ranges p).2.1
    (by have := (C03_ranges p).2.2.1; omega) (C03_ranges p).2.2.2.1
    (by have := (C03_ranges p).2.2.2.2; omega)
  have h2 : (Priority.facility p) + (Priority.severity p) = p := by rw [facility_eq, severity_eq]; omega
  exact ⟨h.trans h2, h2⟩

/-- C03: combining any facility with any severity and splitting again gives them back. -/
theorem C03_combine (p q : Int) :
    Priority.facility (Priority.or (Priority.facility p) (Priority.severity q)) = (Priority.facility p) ∧
    Priority.severity (Priority.or (Priority.facility p) (Priority.severity q)) = (Priority.severity q) := by
  have hp := C03_ranges p
  have hq := C03_ranges q
  rw [or_eq_add hp.1 hp.2.1 (by omega) hq.2.2.2.1 (by omega)]
  rw [facility_eq (_ + _), severity_eq (_ + _)]
  omega

example : Priority.facility 165 = 160 ∧ Priority.severity 165 = 5 ∧
    Priority.facility (-1) = 248 ∧ Priority.severity (-1) = 7 := by decide +kernel

/-! ## C04 -/

theorem lookup_mem {β : Type} {l : List (Bytes × β)} {k : Bytes} {v : β} (h : l.lookup k = some v) :
    (k, v) ∈ l := by
  induction l with
  | nil => simp at h
  | cons a r ih =>
    obtain ⟨a1, a2⟩ := a
    simp only [List.lookup] at h
    split at h
    · next hk =>
      simp only [Option.some.injEq] at h
      have := eq_of_beq hk
      subst this; subst h; simp
    · simp [ih h]

theorem facilityTable_spec : ∀ x ∈ facilityTable, ∃ f ∈ Spec.facilities, x.1 = f.1 ∧ x.2 = 8 * f.2 := by
  decide +kernel
theorem severityTable_spec : ∀ x ∈ severityTable, ∃ f ∈ Spec.severities, x.1 = f.1 ∧ x.2 = f.2 := by
  decide +kernel
theorem facility_lookup : ∀ f ∈ Spec.facilities, facilityTable.lookup f.1 = some ((8 * f.2 : Nat) : Int) ∧
    46 ∉ f.1 := by decide +kernel
theorem severity_lookup : ∀ f ∈ Spec.severities, severityTable.lookup f.1 = some ((f.2 : Nat) : Int) ∧
    f.2 < 8 := by decide +kernel

/-- C04: `Set` succeeds exactly on the strings `facility.severity`, with the value they denote. -/
theorem C04_set_accepts (p v : Int) (d : Bytes) :
    Priority.set p d = (v, none) ↔ Spec.Denotes d v := by
  constructor
  · intro h
    unfold Priority.set at h
    split at h
    · simp at h
    next pos hpos =>
    split at h
    · simp at h
    next f hf =>
    split at h
    · simp at h
    next s hs =>
    simp only [Prod.mk.injEq, and_true] at h
    obtain ⟨a, b, hd, hl, hn⟩ := indexByte_some hpos
    obtain ⟨f', hf', e1, e2⟩ := facilityTable_spec _ (lookup_mem hf)
    obtain ⟨s', hs', e3, e4⟩ := severityTable_spec _ (lookup_mem hs)
    refine ⟨f', hf', s', hs', ?_, ?_⟩
    · rw [← e1, ← e3, hd, ← hl]; simp
    · have := (severity_lookup s' hs').2
      have hlt : ∀ f ∈ Spec.facilities, f.2 < 24 := by decide +kernel
      have := hlt f' hf'
      simp only at e2 e4
      rw [← h, e2, e4, or_eq_add (by omega) (by omega) (by omega) (by omega) (by omega)]
  · rintro ⟨f, hf, s, hs, rfl, rfl⟩
    have hf1 := facility_lookup f hf
    have hs1 := severity_lookup s hs
    have hi : indexByte 46 (f.1 ++ [46] ++ s.1) = some f.1.length := by
      rw [List.append_assoc]; exact indexByte_append hf1.2
    have : ∀ f ∈ Spec.facilities, f.2 < 24 := by decide +kernel
    have := this f hf
    unfold Priority.set
    simp only [hi]
    have t1 : (f.1 ++ [46] ++ s.1).take f.1.length = f.1 := by simp
    have t2 : (f.1 ++ [46] ++ s.1).drop (f.1.length + 1) = s.1 := by simp
    rw [t1, hf1.1, t2, hs1.1]
    simp only
    rw [or_eq_add (by omega) (by omega) (by omega) (by omega) (by omega)]
    simp

/-- C04: when `Set` fails the receiver keeps its value. -/
theorem C04_set_error (p v : Int) (d : Bytes) (e : Err) (h : Priority.set p d = (v, some e)) : v = p := by
  unfold Priority.set at h
  split at h
  · simp at h; exact h.1.symm
  split at h
  · simp at h; exact h.1.symm
  split at h
  · simp at h; exact h.1.symm
  · simp at h

/-- What `String` prints: the names of the facility code and of the severity code (codes 12 to 15
are printed `-`), or a panic. -/
theorem string_eq (p : Int) :
    Priority.string p =
      if p % 256 < 192 then
        .ret ((facilityString[(p % 256 / 8).toNat]?).getD [] ++ [46] ++
          (severityString[(p % 8).toNat]?).getD [])
      else .panic := by
  unfold Priority.string
  rw [facility_eq, severity_eq, Int.shiftRight_eq_div_pow]
  have e : p % 256 / 8 * 8 / ((2 ^ 3 : Nat) : Int) = p % 256 / 8 := by omega
  rw [e]
  unfold strAt
  rw [if_pos (by omega : 0 ≤ p % 256 / 8), if_pos (by omega : 0 ≤ p % 8)]
  have hs : (p % 8).toNat < severityString.length := by
    show _ < 8; omega
  have gs := List.getElem?_eq_getElem hs
  by_cases h : p % 256 < 192
  · rw [if_pos h]
    have hf : (p % 256 / 8).toNat < facilityString.length := by
      show _ < 24; omega
    have gf := List.getElem?_eq_getElem hf
    rw [gf, gs]; rfl
  · rw [if_neg h]
    have hf : facilityString.length ≤ (p % 256 / 8).toNat := by
      show 24 ≤ _; omega
    have gf := List.getElem?_eq_none hf
    rw [gf]; rfl

/-- C04: `String` gives back every string `Set` accepts. -/
theorem C04_string_set (p v : Int) (d : Bytes) (h : Priority.set p d = (v, none)) : Priority.string v = .ret d := by
  obtain ⟨f, hf, s, hs, rfl, rfl⟩ := (C04_set_accepts p v d).mp h
  have key : ∀ f ∈ Spec.facilities, ∀ s ∈ Spec.severities,
      Priority.string (8 * ((f.2 : Nat) : Int) + ((s.2 : Nat) : Int)) = .ret (f.1 ++ [46] ++ s.1) := by
    decide +kernel
  exact key f hf s hs

/-- C04: what `String` prints for a priority whose facility has a name is `facility.severity`, which denotes it. -/
theorem C04_string_named (p : Int) (h : p % 256 < 192) (hf : p % 256 < 96 ∨ 128 ≤ p % 256) :
    ∃ f ∈ Spec.facilities, ∃ s ∈ Spec.severities, (f.2 : Int) = p % 256 / 8 ∧ (s.2 : Int) = p % 8 ∧
      Priority.string p = .ret (f.1 ++ [46] ++ s.1) := by
  have key : ∀ n : Nat, n < 192 → (n < 96 ∨ 128 ≤ n) → ∃ f ∈ Spec.facilities, ∃ s ∈ Spec.severities, f.2 = n / 8 ∧ s.2 = n % 8 ∧
      (facilityString[n / 8]?).getD [] ++ [46] ++ (severityString[n % 8]?).getD [] = f.1 ++ [46] ++ s.1 := by decide +kernel
  obtain ⟨f, hf, s, hs, e1, e2, e3⟩ := key (p % 256).toNat (by omega) (by omega)
  refine ⟨f, hf, s, hs, by omega, by omega, ?_⟩
  rw [string_eq, if_pos h, ← e3, show (p % 256 / 8).toNat = (p % 256).toNat / 8 by omega, show (p % 8).toNat = (p % 256).toNat % 8 by omega]

/-- C04 is violated for the facilities 12 to 15, which have no name in this package: `String` prints `-.severity`, which `Set`
refuses. -/
theorem C04_string_unnamed_violated (p : Int) (h : 96 ≤ p % 256) (h' : p % 256 < 128) :
    ∃ s ∈ Spec.severities, (s.2 : Int) = p % 8 ∧ Priority.string p = .ret (b!"-." ++ s.1) ∧
      ∀ q, Priority.set q (b!"-." ++ s.1) = (q, some .invalidFacSev) := by
  have key : ∀ n : Nat, n < 128 → 96 ≤ n → ∃ s ∈ Spec.severities, s.2 = n % 8 ∧
      (facilityString[n / 8]?).getD [] ++ [46] ++ (severityString[n % 8]?).getD [] = b!"-." ++ s.1 := by decide +kernel
  obtain ⟨s, hs, e2, e3⟩ := key (p % 256).toNat (by omega) (by omega)
  refine ⟨s, hs, by omega, ?_, ?_⟩
  · rw [string_eq, if_pos (by omega), ← e3, show (p % 256 / 8).toNat = (p % 256).toNat / 8 by omega, show (p % 8).toNat = (p % 256).toNat % 8 by omega]
  · intro q
    unfold Priority.set
    have hi : indexByte 46 (b!"-." ++ s.1) = some 1 := rfl
    simp only [hi]
    rfl

/-- C04 (partial): `String` does not panic exactly when the facility code is below 24. Missing: the
English property also promises it for every value the wire decoder can produce, see
`C04_string_violated`. -/
theorem C04_string_safe_partial (p : Int) : Priority.string p ≠ .panic ↔ p % 256 < 192 := by
  rw [string_eq]; split <;> simp_all

/-- C04 (partial): in particular for every RFC 5424 priority. -/
theorem C04_string_rfc_partial (p : Int) (h0 : 0 ≤ p) (h1 : p ≤ 191) : ∃ s, Priority.string p = .ret s := by
  rw [string_eq, if_pos (by omega)]; exact ⟨_, rfl⟩

/-- C04 is violated: the wire decoder accepts `<255>1` and `String` panics on the result. -/
theorem C04_string_violated :
    ∃ d v, Priority.unmarshal 0 d = (v, none) ∧ Priority.string v = .panic :=
  ⟨b!"<255>1", 255, by decide +kernel, by decide +kernel⟩

example : Priority.set 3 b!"local7.debug" = (191, none) ∧
    Priority.string 191 = .ret b!"local7.debug" ∧
    Priority.set 3 b!"local8.debug" = (3, some .invalidFacSev) ∧
    Spec.Denotes b!"local7.debug" 191 := by
  refine ⟨by decide +kernel, by decide +kernel, by decide +kernel, ?_⟩
  exact ⟨(b!"local7", 23), by decide +kernel, (b!"debug", 7), by decide +kernel, by decide +kernel, by decide⟩

end Syslog5424
