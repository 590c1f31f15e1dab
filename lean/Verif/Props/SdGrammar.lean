import Verif.Props.Content
import Verif.Props.Grammar
/-! # C96: structured data made from Go values obeys the RFC 5424 grammar -/
namespace Syslog5424
open Spec

/-- The identifier and the names can be told apart in the text (no space, `=`, `]`, `"` or control character in them). -/
def Spec.Distinct (id : Bytes) (ps : List (Bytes × Bytes)) : Prop :=
  (∀ c ∈ id, NameByte c) ∧ ∀ p ∈ ps, ∀ c ∈ p.1, NameByte c

instance (id : Bytes) (ps : List (Bytes × Bytes)) : Decidable (Distinct id ps) := inferInstanceAs (Decidable (_ ∧ _))

/-- C96: a struct or map is encoded as an SD-ELEMENT of RFC 5424 if its identifier and its names are SD-NAMEs, whatever
its values are. -/
theorem C96_element_partial (v : SD) (id : Bytes) (ps : List (Bytes × Bytes)) (h : Holds v id ps) (hid : IsSdName id)
    (hps : ∀ p ∈ ps, IsSdName p.1) :
    ∃ b, v.marshal = .ret (.ok b) ∧ SdElement b := by
  refine ⟨_, holds_marshal h, id, _, rfl, hid, ?_⟩
  intro p hp
  obtain ⟨q, hq, rfl⟩ := List.mem_map.mp hp
  exact ⟨hps q hq, rawValue_escaped _⟩

/-- C96: and only then, unless a name contains delimiters. -/
theorem C96_exact (v : SD) (id : Bytes) (ps : List (Bytes × Bytes)) (h : Holds v id ps) (hd : Distinct id ps) :
    ∃ b, v.marshal = .ret (.ok b) ∧ (SdElement b ↔ IsSdName id ∧ ∀ p ∈ ps, IsSdName p.1) := by
  refine ⟨_, holds_marshal h, ?_, ?_⟩
  · rintro ⟨id', ps', he, h1, h2⟩
    obtain ⟨rfl, h3⟩ := elementText_injective hd.1 h1.isName.2
      (by
        intro p hp
        obtain ⟨q, hq, rfl⟩ := List.mem_map.mp hp
        exact ⟨hd.2 q hq, rawValue_escaped _⟩)
      (fun p hp => ⟨(h2 p hp).1.isName.2, (h2 p hp).2⟩) he
    refine ⟨h1, fun p hp => ?_⟩
    exact (h2 (p.1, escaped p.2) (by rw [← h3]; exact List.mem_map.mpr ⟨p, hp, rfl⟩)).1
  · rintro ⟨h1, h2⟩
    obtain ⟨b, hb, hs⟩ := C96_element_partial v id ps h h1 h2
    rw [holds_marshal h] at hb
    simp only [Out.ret.injEq, Except.ok.injEq] at hb
    rw [hb]; exact hs

/-- C96: a message that carries such structs and maps is encoded as a SYSLOG-MSG of RFC 5424. -/
theorem C96_message_partial (m : Message) (hprio : 0 ≤ (m.prio : Int) ∧ (m.prio : Int) ≤ 191)
    (hhost : ValidField 255 m.hostname) (happ : ValidField 48 m.appname) (hpid : ValidField 128 m.procid)
    (hmid : ValidField 32 m.msgid) (ht : m.timestamp.Valid) (ho1 : -86400 < m.timestamp.off) (ho2 : m.timestamp.off < 86400)
    (xs : List (Bytes × List (Bytes × Bytes)))
    (hsd : Each (fun v x => Holds v x.1 x.2 ∧ IsSdName x.1 ∧ ∀ p ∈ x.2, IsSdName p.1) m.sd xs) :
    ∃ b ts sd, m.marshal = .ret (.ok b) ∧ StructuredData sd ∧
      SyslogMsg (m.prio : Int).toNat ts m.hostname m.appname m.procid m.msgid sd
        (if m.message = [] then none else some m.message) b := by
  have : ∃ ys : List Bytes, m.sd.map SD.marshal = ys.map (fun x => .ret (.ok x)) ∧ ∀ x ∈ ys, SdElement x := by
    generalize m.sd = sd at hsd
    induction hsd with
    | nil => exact ⟨[], rfl, by simp⟩
    | cons hr _ ih =>
      obtain ⟨ys, h1, h2⟩ := ih
      obtain ⟨b, hb, hs⟩ := C96_element_partial _ _ _ hr.1 hr.2.1 hr.2.2
      refine ⟨b :: ys, by simp only [List.map_cons, hb, h1], ?_⟩
      intro x hx
      rcases List.mem_cons.mp hx with rfl | hx
      · exact hs
      · exact h2 x hx
  obtain ⟨ys, h1, h2⟩ := this
  obtain ⟨b, ts, sd, g1, _, _, g4⟩ := C08_grammar m hprio hhost happ hpid hmid ht ho1 ho2 ys h1 h2
  obtain ⟨pri, k1, k2, k3, k4, k5, k6, k7, k8⟩ := g4
  exact ⟨b, ts, sd, g1, k7, pri, k1, k2, k3, k4, k5, k6, k7, k8⟩

/-- The struct and the map of `contentSD` have such names. -/
example : ∀ x ∈ [(b!"x@1", [(b!"a", b!"q\"]\\"), (b!"B", b!"1"), (b!"B", b!"2")]), (b!"y@2", [(b!"k", b!""), (b!"z", b!"last")])],
    IsSdName x.1 ∧ ∀ p ∈ x.2, IsSdName p.1 := by decide +kernel

/-- **C96 fails** for the tags of structs: the encoder accepts names longer than 32 bytes, and letters that are not ASCII.
With such a tag the struct is encoded without error, and the text is no SD-ELEMENT. -/
theorem C96_tag_violated (i : SDIDLight) (name tag v : Bytes) (hname : name ≠ []) (hd : tag ≠ b!"-") (htag : TagName tag)
    (hi : ∀ c ∈ i.string, NameByte c) (hclear : ∀ c ∈ tag, NameByte c) (hv : v ≠ [])
    (hbad : 32 < tag.length ∨ ∃ c ∈ tag, 128 ≤ c.toNat) :
    ∃ b, (genericOfStruct i [⟨name, tag, true, .scalar true, v⟩]).marshal = .ret (.ok b) ∧
      b = elementText i.string [(tag, escaped v)] ∧ ¬ SdElement b := by
  have hH := holds_tag i name tag v hname hd htag hv
  obtain ⟨b, hb, he⟩ := C96_exact _ _ _ hH ⟨hi, by simpa using hclear⟩
  have hb2 := holds_marshal hH
  rw [hb] at hb2
  simp only [Out.ret.injEq, Except.ok.injEq] at hb2
  refine ⟨b, hb, hb2, fun hs => ?_⟩
  have := (he.mp hs).2 (tag, v) (by simp)
  rcases hbad with h | ⟨c, hc, h8⟩
  · exact absurd this.2.1 (by simp only; omega)
  · have := (this.2.2 c hc).2.1
    omega

/-- `sd5424:"durée"`. -/
example : TagName (b!"dur" ++ [0xC3, 0xA9] ++ b!"e") ∧ (∀ c ∈ b!"dur" ++ [0xC3, 0xA9] ++ b!"e", NameByte c) ∧
    ∃ c ∈ b!"dur" ++ [0xC3, 0xA9] ++ b!"e", 128 ≤ c.toNat := by decide +kernel
/-- `sd5424:"the-number-of-the-request-of-the-user"`. -/
example : TagName b!"the-number-of-the-request-of-the-user" ∧ 32 < (b!"the-number-of-the-request-of-the-user").length := by
  decide +kernel

/-- **C96 fails** for the keys of maps, which are not checked at all: longer than 32 bytes, or not ASCII. -/
theorem C96_key_violated (i : SDIDLight) (key v : Bytes) (hi : ∀ c ∈ i.string, NameByte c) (hne : key ≠ [])
    (hclear : ∀ c ∈ key, NameByte c) (hbad : 32 < key.length ∨ ∃ c ∈ key, 128 ≤ c.toNat) :
    ∃ b, (genericOfMap i (.scalar true) (some [(key, v)])).marshal = .ret (.ok b) ∧
      b = elementText i.string [(key, escaped v)] ∧ ¬ SdElement b := by
  have hH : Holds (genericOfMap i (.scalar true) (some [(key, v)])) i.string [(key, v)] :=
    .map i (.scalar true) _ [(key, v)] _ (by simp) (by simp) (by simpa using hne) (.refl _) (by simp) (by rfl)
  obtain ⟨b, hb, he⟩ := C96_exact _ _ _ hH ⟨hi, by simpa using hclear⟩
  have hb2 := holds_marshal hH
  rw [hb] at hb2
  simp only [Out.ret.injEq, Except.ok.injEq] at hb2
  refine ⟨b, hb, hb2, fun hs => ?_⟩
  have := (he.mp hs).2 (key, v) (by simp)
  rcases hbad with h | ⟨c, hc, h8⟩
  · exact absurd this.2.1 (by simp only; omega)
  · have := (this.2.2 c hc).2.1
    omega

/-- **C96 fails** for the identifier, which is what `String` of the value returns. -/
theorem C96_identifier_violated (v : SD) (id : Bytes) (ps : List (Bytes × Bytes)) (h : Holds v id ps) (hd : Distinct id ps)
    (hid : ¬ IsSdName id) : ∃ b, v.marshal = .ret (.ok b) ∧ ¬ SdElement b := by
  obtain ⟨b, hb, he⟩ := C96_exact v id ps h hd
  exact ⟨b, hb, fun hs => hid (he.mp hs).1⟩

/-- An empty identifier: a value whose `String` returns nothing. -/
example : ¬ IsSdName [] ∧ Distinct [] [((b!"k" : Bytes), (b!"v" : Bytes))] ∧
    Holds (genericOfMap ⟨[], true, 0⟩ (.scalar true) (some [(b!"k", b!"v")])) [] [(b!"k", b!"v")] :=
  ⟨by decide, by decide, .map ⟨[], true, 0⟩ (.scalar true) _ [((b!"k" : Bytes), (b!"v" : Bytes))] _ (by simp) (by simp) (by decide)
    (.refl _) (by simp) (by rfl)⟩

/-- **C96 fails** when a message is given two elements with the same identifier, which section 6.3.2 of the RFC forbids:
both are written. -/
theorem C96_twice_violated (m : Message) (v w : SD) (id : Bytes) (ps qs : List (Bytes × Bytes)) (hv : Holds v id ps)
    (hw : Holds w id qs) :
    sdListMarshal (({ m with sd := [] } : Message).addSD [v, w]).sd = .ret (.ok
      (elementText id (ps.map fun p => (p.1, escaped p.2)) ++ elementText id (qs.map fun p => (p.1, escaped p.2)))) := by
  simp [Message.addSD, sdListMarshal, encodeAll, holds_marshal hv, holds_marshal hw]

end Syslog5424
