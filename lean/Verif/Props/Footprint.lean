import Verif.Spec.Footprint
import Verif.Props.Decoder
/-! # Property C90: a received message can be used while the receiver goes on -/
namespace Syslog5424
open Spec Transport Tok

theorem View.respare {m : MsgImm} {fs xs : List Bytes} {o : Option Bytes} (h : View m fs xs o) (sp : Bytes) :
    View { m with buffer := ⟨m.buffer.vis, sp⟩ } fs xs o := by
  cases h with
  | dash h1 h2 => exact .dash h1 h2
  | dashText h1 h2 => exact .dashText h1 h2
  | sd h1 h2 h3 h4 => exact .sd h1 h2 h3 h4

/-- Every message that the tokenizer delivers is the zero message or has its shape. -/
theorem parseLoop_view {t : Transport} {eof : Bool} (fuel : Nat) : ∀ (data : Slice) (out0 : List (MsgImm × Option Err)),
    data.cap < 2 ^ 63 → ∀ data' out, parseLoop t eof fuel data out0 = .ret (data', out) →
    (∀ d ∈ out0, d.1 = MsgImm.zero ∨ ∃ fs xs o, View d.1 fs xs o) → ∀ d ∈ out, d.1 = MsgImm.zero ∨ ∃ fs xs o, View d.1 fs xs o := by
  induction fuel with
  | zero => intro _ _ _ _ _ h; cases h
  | succ fuel ih =>
    intro data out0 hcap data' out h h0
    unfold parseLoop at h
    cases hp : parse (some data) (some t) eof with
    | panic => rw [hp] at h; cases h
    | hang => rw [hp] at h; cases h
    | ret x =>
      obtain ⟨m, rest, e⟩ := x
      rw [hp] at h
      simp only [Out.ret_bind] at h
      have hv : m = MsgImm.zero ∨ ∃ fs xs o, View m fs xs o :=
        Classical.byCases (fun hz => Or.inl hz) (fun hz => Or.inr (parse_view (data := some data) hcap hp hz))
      have h1 : ∀ d ∈ out0 ++ [(m, e)], d.1 = MsgImm.zero ∨ ∃ fs xs o, View d.1 fs xs o := by
        intro d hd
        rw [List.mem_append, List.mem_singleton] at hd
        rcases hd with hd | rfl
        · exact h0 d hd
        · exact hv
      cases rest with
      | none =>
        simp only [Out.pure_eq, Out.ret.injEq, Prod.mk.injEq] at h
        rw [← h.2]; exact h0
      | some r =>
        simp only at h
        split at h
        · simp only [Out.pure_eq, Out.ret.injEq, Prod.mk.injEq] at h
          rw [← h.2]; exact h1
        · obtain ⟨h2, ⟨pre, _, h3⟩, _⟩ := parse_rest hcap hp
          refine ih r _ ?_ data' out h h1
          simp only [Slice.cap, h2, h3, List.length_append] at hcap ⊢; omega

def Tok.Shaped (s : State) : Prop := ∀ d ∈ s.out, d.msg = MsgImm.zero ∨ ∃ fs xs o, View d.msg fs xs o

theorem step_shaped {t : Transport} {s s' : State} {r : Read} {b : Bool} (hm : Mem s) (hf : r.Fits s)
    (hs : step t s r = .ret (b, s')) (h : Shaped s) : Shaped s' := by
  by_cases h0 : r.data = []
  · unfold step at hs
    simp only [h0, List.length_nil, true_and, if_true] at hs
    split at hs <;>
    · simp only [Out.ret.injEq, Prod.mk.injEq] at hs
      rw [← hs.2]; exact h
  · obtain ⟨arr, spare, errs, harr, hl, hst⟩ := step_eq (t := t) hm hf h0
    have hcap : (Slice.mk (s.pending ++ r.data) spare).cap < 2 ^ 63 := by
      simp only [Slice.cap]
      simp only [readBuffer] at hl
      omega
    cases hp : parseLoop t (decide (r.err = .eof)) ((s.pending ++ r.data).length + 1) ⟨s.pending ++ r.data, spare⟩ [] with
    | panic => rw [hst, hp] at hs; cases hs
    | hang => rw [hst, hp] at hs; cases hs
    | ret x =>
      obtain ⟨data', ds⟩ := x
      rw [hst, hp] at hs
      simp only [Out.ret_bind, Out.pure_eq, Out.ret.injEq, Prod.mk.injEq] at hs
      have hout : s'.out = s.out ++ ds.map fun d => ⟨s.old.length, d.1, d.2⟩ := by
        rw [← hs.2]; unfold Tok.advance; simp only; split <;> rfl
      intro d hd
      rw [hout, List.mem_append, List.mem_map] at hd
      rcases hd with hd | ⟨x, hx, rfl⟩
      · exact h d hd
      · exact parseLoop_view _ _ _ hcap _ _ hp (by simp) x hx

theorem run_shaped {t : Transport} {s : State} {rs : List Read} {o : Out (Bool × State)} (h : Run t s rs o) :
    Mem s → Shaped s → ∀ b s', o = .ret (b, s') → Shaped s' := by
  induction h with
  | nil => intro _ h b s' e; simp only [Out.ret.injEq, Prod.mk.injEq] at e; rw [← e.2]; exact h
  | cons hf hs _ ih => intro hm h; exact ih (step_mem hm hf hs).1 (step_shaped hm hf hs h)
  | last hf hs _ => intro hm h b s' e; rw [e] at hs; exact step_shaped hm hf hs h

theorem shaped_init : Shaped init := by intro d hd; cases hd

/-- A delivered message in memory: the same bytes, and as many bytes behind them. -/
theorem msgAt_eq {s : State} {d : Delivered} (h : Held s d) :
    ∃ z, z.length = d.msg.buffer.spare.length ∧ s.msgAt d = { d.msg with buffer := ⟨d.msg.buffer.vis, z⟩ } := by
  rcases h with h | ⟨a, x, z, h1, h2, h3, _⟩
  · refine ⟨[], by rw [h]; rfl, ?_⟩
    unfold State.msgAt State.startOf
    simp [h, MsgImm.zero, Slice.cap, Slice.len]
  · refine ⟨z, h3, ?_⟩
    unfold State.msgAt State.startOf State.array
    simp only [h1, Option.getD_some]
    have e : a.length - d.msg.buffer.cap = x.length := by
      simp only [h2, Slice.cap, List.length_append, h3]; omega
    rw [e, h2, List.append_assoc, List.drop_left, Slice.len, List.take_left, List.drop_left]

/-- Opening an element does not depend on what is behind it. -/
theorem openElement_two (x f f' : Bytes) :
    (openElement ⟨x, f⟩ = .panic ∧ openElement ⟨x, f'⟩ = .panic) ∨
    (openElement ⟨x, f⟩ = .ret none ∧ openElement ⟨x, f'⟩ = .ret none) ∨
    ∃ inner, openElement ⟨x, f⟩ = .ret (some ⟨inner, RBRK :: f⟩) ∧ openElement ⟨x, f'⟩ = .ret (some ⟨inner, RBRK :: f'⟩) := by
  rcases openElement_cases ⟨x, f⟩ with ⟨h1, h2⟩ | ⟨h1, h2, h3⟩ | ⟨inner, h1, h2⟩
  · refine Or.inl ⟨h2, ?_⟩
    simp only at h1
    rw [h1]; exact openElement_nil _
  · exact Or.inr (Or.inl ⟨h3, openElement_other h1 h2⟩)
  · refine Or.inr (Or.inr ⟨inner, h2, ?_⟩)
    simp only at h1
    rw [h1]; exact openElement_bracket _ _

/-- A name without closing bracket is recognised at the beginning of an element or not, whatever is behind the element. -/
theorem sub_name (inner f f' name : Bytes) (hn : RBRK ∉ name) (hf : f.length = f'.length) :
    ((Slice.mk inner (RBRK :: f)).sub 0 name.length = .panic ∧ (Slice.mk inner (RBRK :: f')).sub 0 name.length = .panic) ∨
    ∃ a b, (Slice.mk inner (RBRK :: f)).sub 0 name.length = .ret a ∧ (Slice.mk inner (RBRK :: f')).sub 0 name.length = .ret b ∧
      (a.vis = name ↔ b.vis = name) := by
  have hcap : (Slice.mk inner (RBRK :: f)).cap = (Slice.mk inner (RBRK :: f')).cap := by simp [Slice.cap, hf]
  by_cases hcond : 0 ≤ (0 : Int) ∧ 0 ≤ (name.length : Int) ∧ (name.length : Int) ≤ (Slice.mk inner (RBRK :: f')).cap
  · have hcond' := hcond
    rw [← hcap] at hcond'
    unfold Slice.sub
    rw [if_pos hcond, if_pos hcond']
    refine Or.inr ⟨_, _, rfl, rfl, ?_⟩
    simp only [Int.toNat_natCast, Int.toNat_zero, List.drop_zero]
    by_cases hl : name.length ≤ inner.length
    · rw [List.take_append_of_le_length hl, List.take_append_of_le_length hl]
    · have key : ∀ g : Bytes, (inner ++ RBRK :: g).take name.length ≠ name := by
        intro g e
        apply hn
        rw [← e]
        obtain ⟨k, hk⟩ : ∃ k, name.length = inner.length + (k + 1) := ⟨name.length - inner.length - 1, by omega⟩
        rw [hk, List.take_length_add_append, List.take_succ_cons]
        simp
      exact ⟨fun e => absurd e (key f), fun e => absurd e (key f')⟩
  · have hcond' := hcond
    rw [← hcap] at hcond'
    unfold Slice.sub
    rw [if_neg hcond, if_neg hcond']; exact Or.inl ⟨rfl, rfl⟩

theorem from_two (inner g g' : Bytes) (n : Int) :
    ((Slice.mk inner g).from_ n = .panic ∧ (Slice.mk inner g').from_ n = .panic) ∨
    ∃ v, (Slice.mk inner g).from_ n = .ret ⟨v, g⟩ ∧ (Slice.mk inner g').from_ n = .ret ⟨v, g'⟩ := by
  by_cases hc : 0 ≤ n ∧ n ≤ (inner.length : Int)
  · have h1 : ∀ g : Bytes, (Slice.mk inner g).from_ n = .ret ⟨inner.drop n.toNat, g⟩ := fun g => if_pos hc
    exact Or.inr ⟨_, h1 g, h1 g'⟩
  · have h1 : ∀ g : Bytes, (Slice.mk inner g).from_ n = .panic := fun g => if_neg hc
    exact Or.inl ⟨h1 g, h1 g'⟩

/-- C90: the decoder of timequality does not depend on the bytes behind the element, although it looks at them. -/
theorem tq_local : Local tqSDID := by
  intro x f f' hf
  change tqFound _ = tqFound _
  unfold tqFound
  rcases openElement_two x f f' with ⟨h, h'⟩ | ⟨h, h'⟩ | ⟨inner, h, h'⟩
  · rw [h, h']
  · rw [h, h']
  · rw [h, h']
    simp only [Out.ret_bind]
    rcases sub_name inner f f' b!"timeQuality" (by decide) hf with ⟨g, g'⟩ | ⟨a, b, g, g', e⟩
    · rw [show ((11 : Int)) = ((b!"timeQuality").length : Int) from rfl, g, g']; rfl
    · rw [show ((11 : Int)) = ((b!"timeQuality").length : Int) from rfl, g, g']
      simp only [Out.ret_bind]
      by_cases ha : a.vis = b!"timeQuality"
      · rw [if_neg (by simpa using ha), if_neg (by simpa using e.mp ha)]
        rcases from_two inner (RBRK :: f) (RBRK :: f') ((b!"timeQuality").length : Int) with ⟨k, k'⟩ | ⟨v, k, k'⟩ <;> rw [k, k'] <;> rfl
      · rw [if_pos ha, if_pos (fun h => ha (e.mpr h))]

/-- C90: neither does that of a generic identifier without closing bracket. -/
theorem generic_local (name : Bytes) (hn : (93 : UInt8) ∉ name) : Local (genericSDID name) := by
  intro x f f' hf
  change genericFound name _ = genericFound name _
  unfold genericFound
  rcases openElement_two x f f' with ⟨h, h'⟩ | ⟨h, h'⟩ | ⟨inner, h, h'⟩
  · rw [h, h']
  · rw [h, h']
  · rw [h, h']
    simp only [Out.ret_bind]
    rcases sub_name inner f f' name hn hf with ⟨g, g'⟩ | ⟨a, b, g, g', e⟩
    · rw [g, g']; rfl
    · rw [g, g']
      simp only [Out.ret_bind]
      by_cases ha : a.vis = name
      · rw [if_neg (by simpa using ha), if_neg (by simpa using e.mp ha)]
        rcases from_two inner (RBRK :: f) (RBRK :: f') (name.length : Int) with ⟨k, k'⟩ | ⟨v, k, k'⟩ <;> rw [k, k'] <;> rfl
      · rw [if_pos ha, if_pos (fun h => ha (e.mpr h))]

theorem unknown_local (x f f' : Bytes) : unknownFound ⟨x, f⟩ = unknownFound ⟨x, f'⟩ := by
  unfold unknownFound
  rcases openElement_two x f f' with ⟨h, h'⟩ | ⟨h, h'⟩ | ⟨inner, h, h'⟩ <;> rw [h, h'] <;> rfl

theorem registryFound_local {reg : List SDID} (hreg : ∀ i ∈ reg, Local i) (x f f' : Bytes) (hf : f.length = f'.length) :
    registryFound reg ⟨x, f⟩ = registryFound reg ⟨x, f'⟩ := by
  induction reg with
  | nil => exact unknown_local x f f'
  | cons i r ih =>
    unfold registryFound
    rw [hreg i (by simp) x f f' hf, ih (fun j hj => hreg j (by simp [hj]))]

theorem decodeAll_local {reg : List SDID} (hreg : ∀ i ∈ reg, Local i) (f f' : Bytes) (hf : f.length = f'.length) (xs : List Bytes) :
    decodeAll reg f xs = decodeAll reg f' xs := by
  induction xs with
  | nil => rfl
  | cons x r ih =>
    unfold decodeAll
    rw [registryFound_local hreg x _ (r.flatten ++ f') (by simp [hf]), ih]

theorem sameAnswers_respare {reg : List SDID} (hreg : ∀ i ∈ reg, Local i) {m : MsgImm} {fs xs : List Bytes} {o : Option Bytes}
    (h : View m fs xs o) {z : Bytes} (hz : z.length = m.buffer.spare.length) :
    SameAnswers reg { m with buffer := ⟨m.buffer.vis, z⟩ } m := by
  have h' := h.respare z
  obtain ⟨pri, ts, host, app, pid, mid, e, hr⟩ := h.readsAs
  obtain ⟨pri', ts', host', app', pid', mid', e', hr'⟩ := h'.readsAs
  rw [e] at e'
  simp only [List.cons.injEq, and_true] at e'
  obtain ⟨rfl, rfl, rfl, rfl, rfl, rfl⟩ := e'
  obtain ⟨q1, q2, q3, q4, q5, q6, q7⟩ := readsAs_same hr' hr
  have q8 : MsgImm.structuredData reg { m with buffer := ⟨m.buffer.vis, z⟩ } = m.structuredData reg := by
    rw [h'.structuredData, h.structuredData]
    split
    · rfl
    · exact decodeAll_local hreg _ _ (by simp [hz]) xs
  refine ⟨rfl, q1, q2, q3, q4, q5, q6, q8, q7, ?_⟩
  unfold MsgImm.writable
  rw [q1, q2, q3, q4, q5, q6, q7, q8]

/-- **C90.** A message that was delivered gives the same answers whenever it is asked, whatever the tokenizer has read in the
meantime into the array the message is a part of. -/
theorem C90_any_time (t : Transport) (reads later : List Read) (s s' : State) (b : Bool)
    (h : Run t init reads (.ret (true, s))) (h' : Run t s later (.ret (b, s'))) (reg : List SDID) (hreg : ∀ i ∈ reg, Local i)
    (d : Delivered) (hd : d ∈ s.out) : SameAnswers reg (s'.msgAt d) d.msg := by
  obtain ⟨hm, _⟩ := run_mem h mem_init _ _ rfl
  obtain ⟨hm', hp⟩ := run_mem h' hm _ _ rfl
  obtain ⟨z, hz, e⟩ := msgAt_eq (hm'.held d (hp.subset hd))
  rw [e]
  rcases run_shaped h mem_init shaped_init _ _ rfl d hd with h0 | ⟨fs, xs, o, hv⟩
  · have hz' : z = [] := by rw [h0] at hz; exact List.length_eq_zero_iff.mp hz
    have : ({ d.msg with buffer := ⟨d.msg.buffer.vis, z⟩ } : MsgImm) = d.msg := by rw [hz', h0]; rfl
    rw [this]
    exact ⟨rfl, rfl, rfl, rfl, rfl, rfl, rfl, rfl, rfl, rfl⟩
  · exact sameAnswers_respare hreg hv hz

/-- **C90.** With the identifiers of the package and generic ones registered (without closing bracket in their name), the
hypothesis of `C90_any_time` is met. -/
theorem C90_package (reg : List SDID) (h : ∀ i ∈ reg, i = tqSDID ∨ ∃ name, (93 : UInt8) ∉ name ∧ i = genericSDID name) :
    ∀ i ∈ reg, Local i := by
  intro i hi
  rcases h i hi with rfl | ⟨name, hn, rfl⟩
  · exact tq_local
  · exact generic_local name hn

theorem startOf_eq {s : State} {d : Delivered} (h : Held s d) (h0 : d.msg ≠ MsgImm.zero) :
    (d.arr = s.old.length → s.startOf d + d.msg.buffer.len ≤ s.off) := by
  rcases h with h | ⟨a, x, z, h1, h2, h3, h4⟩
  · exact absurd h h0
  · intro ha
    have e : s.startOf d = x.length := by
      unfold State.startOf State.array
      rw [h1]
      simp only [Option.getD_some, h2, Slice.cap, List.length_append, h3]; omega
    rw [e]
    exact h4 ha

/-- **C90.** No later `Read` writes to the bytes of a delivered message: the accessors other than `StructuredData` and
`Writable` can be called at any time without data race. -/
theorem C90_no_overlap (t : Transport) (reads later : List Read) (s s' : State)
    (h : Run t init reads (.ret (true, s))) (h' : Run t s later (.ret (true, s'))) (d : Delivered) (hd : d ∈ s.out) (r : Read) :
    ¬ Overlap (AccessorReads s' d) s' r := by
  obtain ⟨hm, _⟩ := run_mem h mem_init _ _ rfl
  obtain ⟨hm', hp⟩ := run_mem h' hm _ _ rfl
  rintro ⟨p, ⟨e1, e2, e3⟩, ⟨g1, g2, _⟩⟩
  by_cases h0 : d.msg = MsgImm.zero
  · rw [h0] at e3
    have : MsgImm.zero.buffer.len = 0 := rfl
    omega
  · have := startOf_eq (hm'.held d (hp.subset hd)) h0 (e1.symm.trans g1)
    omega

/-- C90 for `StructuredData` and `Writable`, as long as what they read is in the message. -/
theorem C90_structured_data_partial (t : Transport) (reads later : List Read) (s s' : State)
    (h : Run t init reads (.ret (true, s))) (h' : Run t s later (.ret (true, s'))) (d : Delivered) (hd : d ∈ s.out) (r : Read)
    (hr : sdReads d.msg ≤ d.msg.buffer.len) : ¬ Overlap (SDReads s' d) s' r := by
  rintro ⟨p, ⟨e1, e2, e3⟩, hw⟩
  rw [Nat.max_eq_left hr] at e3
  exact C90_no_overlap t reads later s s' h h' d hd r ⟨p, ⟨e1, e2, e3⟩, hw⟩

theorem tqEnd_le (b : Bytes) (start stop : Nat) : tqEnd b start stop ≤ stop + 11 := by
  unfold tqEnd
  split <;> omega

theorem sdEnd_le (b : Bytes) (B : Nat) (stops : List Int) : ∀ start, (∀ e ∈ stops, e.toNat ≤ B) → sdEnd b start stops ≤ B + 11 := by
  induction stops with
  | nil => intro _ _; exact Nat.zero_le _
  | cons e r ih =>
    intro start h
    have h1 := h e (by simp)
    have h2 := ih e.toNat (fun x hx => h x (by simp [hx]))
    have h3 := tqEnd_le b start e.toNat
    show max _ _ ≤ _
    omega

theorem sdReads_le (m : MsgImm) (B : Nat) (h : ∀ e ∈ m.index.drop 6, e.toNat ≤ B) : sdReads m ≤ max m.buffer.len (B + 11) := by
  have hd : m.index.drop 6 = (m.index.drop 5).drop 1 := by rw [List.drop_drop]
  rw [hd] at h
  unfold sdReads
  split
  · rename_i i5 e hi
    rw [hi] at h
    split
    · rename_i hx
      have := (List.getElem?_eq_some_iff.mp hx).1
      simp only [Slice.len]
      omega
    · have := sdEnd_le m.buffer.vis B [e] (i5 + 1).toNat (by simpa using h)
      omega
  · rename_i i5 r _ hi
    rw [hi] at h
    have := sdEnd_le m.buffer.vis B r (i5 + 1).toNat (by simpa using h)
    omega
  · omega

theorem elemIndex_le (xs : List Bytes) : ∀ s, ∀ e ∈ elemIndex s xs, e.toNat ≤ s + xs.flatten.length := by
  induction xs with
  | nil => intro s e he; cases he
  | cons x r ih =>
    intro s e he
    rw [elemIndex_cons, List.mem_cons] at he
    simp only [List.flatten_cons, List.length_append]
    rcases he with rfl | he
    · simp only [Int.toNat_natCast]; omega
    · have := ih _ e he; omega

/-- With a text of ten bytes or more, everything that `StructuredData` reads is in the message. -/
theorem sdReads_view {m : MsgImm} {fs xs : List Bytes} {o : Option Bytes} (h : View m fs xs o) {text : Bytes}
    (ht : m.textOf = .ret text) (hl : 10 ≤ text.length) : sdReads m ≤ m.buffer.len := by
  rw [h.textOf, Out.ret.injEq] at ht
  have hl' : 11 ≤ (o.getD []).length := by rw [← ht, List.length_drop] at hl; omega
  clear ht hl
  cases h with
  | dash => cases hl'
  | @dashText _ t spare h1 h2 =>
    have h6 : (headerIndex 0 fs ++ [(((headerText fs).length + 1 : Nat) : Int)]).drop 6 = [(((headerText fs).length + 1 : Nat) : Int)] := by
      rw [← h1, ← headerIndex_length 0 fs, List.drop_left]
    have := sdReads_le ⟨⟨headerText fs ++ [DASH, SP] ++ t, spare⟩,
        headerIndex 0 fs ++ [(((headerText fs).length + 1 : Nat) : Int)],
        (((headerText fs).length + 2 : Nat) : Int)⟩ ((headerText fs).length + 1) (by
          intro e he; simp only [h6, List.mem_singleton] at he; rw [he, Int.toNat_natCast]; exact Nat.le_refl _)
    simp only [Slice.len, List.length_append, List.length_cons, List.length_nil, Option.getD_some] at this hl' ⊢
    omega
  | @sd _ _ _ spare h1 h2 h3 h4 =>
    have h6 : (headerIndex 0 fs ++ elemIndex (headerText fs).length xs).drop 6 = elemIndex (headerText fs).length xs := by
      rw [← h1, ← headerIndex_length 0 fs, List.drop_left]
    have := sdReads_le ⟨⟨headerText fs ++ xs.flatten ++ o.getD [], spare⟩,
        headerIndex 0 fs ++ elemIndex (headerText fs).length xs, textPos (headerText fs).length xs o⟩
        ((headerText fs).length + xs.flatten.length) (by
          intro e he; simp only [h6] at he; exact elemIndex_le xs _ e he)
    simp only [Slice.len, List.length_append] at this ⊢
    omega

/-- C90 for `StructuredData` and `Writable`, for a message with a text of ten bytes or more. -/
theorem C90_structured_data_text_partial (t : Transport) (reads later : List Read) (s s' : State)
    (h : Run t init reads (.ret (true, s))) (h' : Run t s later (.ret (true, s'))) (d : Delivered) (hd : d ∈ s.out) (r : Read)
    (text : Bytes) (ht : d.msg.textOf = .ret text) (hl : 10 ≤ text.length) : ¬ Overlap (SDReads s' d) s' r := by
  refine C90_structured_data_partial t reads later s s' h h' d hd r ?_
  rcases run_shaped h mem_init shaped_init _ _ rfl d hd with h0 | ⟨fs, xs, o, hv⟩
  · rw [h0] at ht
    cases ht
    cases hl
  · exact sdReads_view hv ht hl

def shortMsg : Bytes := b!"<0>1 - - - - - [a b=\"c\"]"

theorem layout_short : ∃ txt, Layout shortMsg [b!"<0>1", b!"-", b!"-", b!"-", b!"-", b!"-"] [b!"[a b=\"c\"]"] none
    [4, 6, 8, 10, 12, 14, 24] txt := by
  have hi : Items b!"[a b=\"c\"]" [b!"[a b=\"c\"]"] none := .stop (.last (p := b!"[a b=\"c") (by decide))
  exact ⟨_, Layout.sd (fs := [b!"<0>1", b!"-", b!"-", b!"-", b!"-", b!"-"]) rfl (by decide) hi ⟨b!"[a", b!"b=\"c\"]", by decide, by decide, by decide⟩⟩

theorem short_run : ∃ s d, Run .rfc5425 init [{ data := rfc5425.encode shortMsg }] (.ret (true, s)) ∧
    s.out = [d] ∧ d.msg.string = shortMsg ∧ d.err = none ∧ (s.off = 27 ∧ s.done = 0 ∧ s.arr.length = readBuffer) ∧
    ∀ r, r.data ≠ [] → Overlap (SDReads s d) s r := by
  have hf : Read.Fits { data := rfc5425.encode shortMsg } init := fits_init (by decide +kernel)
  have hlen : (rfc5425.encode shortMsg).length = 27 := by decide +kernel
  have hne : rfc5425.encode shortMsg ≠ [] := by intro e; rw [e] at hlen; cases hlen
  obtain ⟨arr, spare, errs, harr, hl, hst⟩ := step_eq (t := .rfc5425) mem_init hf hne
  rw [pending_init, List.nil_append] at hst
  obtain ⟨txt, hL⟩ := layout_short
  have hp := parse_5425_frame shortMsg [] spare false (by decide) (by rw [List.append_nil, hlen]; decide) hL
  rw [List.append_nil] at hp
  unfold parseLoop at hst
  simp only [reduceCtorEq, decide_false] at hst
  rw [hp] at hst
  simp only [Out.ret_bind, Slice.len_mk, List.length_nil, if_true, Out.pure_eq, List.nil_append, List.map_cons, List.map_nil,
    Bool.not_false] at hst
  have hm := (step_mem mem_init hf hst).1
  refine ⟨_, ⟨0, ⟨⟨shortMsg, [] ++ spare⟩, [4, 6, 8, 10, 12, 14, 24], txt⟩, none⟩, .cons hf hst .nil, ?_, rfl, rfl, ?_⟩
  · unfold Tok.advance; simp only; split <;> rfl
  have hadv : ∀ out, Tok.advance { init with arr := arr, errs := errs } ((rfc5425.encode shortMsg).length + init.done) 0 out
      = { init with arr := arr, errs := errs, off := 27, done := 0, out := out } := by
    intro out
    have hc : ¬ (arr.drop (0 + (27 + 0 - 0))).length < 500 := by rw [List.length_drop, harr]; simp only [readBuffer]; decide
    rw [hlen]
    exact if_neg hc
  have hgoal : ∀ r : Read, r.data ≠ [] → ∀ s d, Mem s → s.old = [] → s.arr.length = readBuffer → s.off = 27 → s.done = 0 → s.out = [d] → d.arr = 0 →
      d.msg = ⟨⟨shortMsg, [] ++ spare⟩, [4, 6, 8, 10, 12, 14, 24], txt⟩ → Overlap (SDReads s d) s r := by
    intro r hr s d hm h1 h2 h3 h4 h5 h6 h7
    have hne0 : d.msg ≠ MsgImm.zero := by
      rw [h7]; intro e
      have := congrArg (fun m : MsgImm => m.index.length) e
      cases this
    have hst := startOf_eq (hm.held d (by rw [h5]; simp)) hne0 (by rw [h6, h1]; rfl)
    have hml : d.msg.buffer.len = 24 := by rw [h7]; rfl
    have hge : 3 ≤ s.startOf d := by
      unfold State.startOf State.array
      rw [h1, h6, h7]
      simp only [List.nil_append, List.getElem?_cons_zero, Option.getD_some, Slice.cap, h2]
      have : shortMsg.length = 24 := rfl
      simp only [pending_init, List.nil_append] at hl
      rw [hlen] at hl
      simp only [readBuffer] at *
      omega
    have hsd : sdReads d.msg = 27 := by rw [h7]; rfl
    have hpos : 0 < r.data.length := List.length_pos_iff.mpr hr
    refine ⟨⟨0, 27⟩, ⟨h6.symm, ?_, ?_⟩, ?_, ?_, ?_⟩
    · rw [h3, hml] at hst; show s.startOf d ≤ 27; omega
    · rw [hsd, hml]; show 27 < s.startOf d + 27; omega
    · rw [h1]; rfl
    · rw [h3, h4]; decide
    · rw [h3, h4, List.length_append]; show 27 < 27 + 0 + _; omega
  rw [hadv] at hm ⊢
  exact ⟨⟨rfl, rfl, harr⟩, fun r hr => hgoal r hr _ _ hm rfl harr rfl rfl rfl rfl rfl⟩

/-- C90 is violated by `StructuredData` and `Writable` (with timequality registered): after this message has been received
they read bytes that the next `Read` writes. -/
theorem C90_structured_data_violated : ∃ s d, Run .rfc5425 init [{ data := rfc5425.encode shortMsg }] (.ret (true, s)) ∧
    s.out = [d] ∧ d.msg.string = shortMsg ∧ d.err = none ∧ ∀ r, r.data ≠ [] → Overlap (SDReads s d) s r := by
  obtain ⟨s, d, h1, h2, h3, h4, _, h5⟩ := short_run
  exact ⟨s, d, h1, h2, h3, h4, h5⟩

/-- The premise on the decoders matters: an identifier whose name contains a closing bracket looks at the bytes behind the
element. -/
example : ¬ Local (genericSDID b!"a]b") := by
  intro h
  have h1 := h b!"[a]" b!"b]" b!"c]" rfl
  have h2 : ((genericSDID b!"a]b").found ⟨b!"[a]", b!"b]"⟩ matches .ret none) = false := by decide +kernel
  have h3 : ((genericSDID b!"a]b").found ⟨b!"[a]", b!"c]"⟩ matches .ret none) = true := by decide +kernel
  rw [h1, h3] at h2
  cases h2

/-- The hypotheses of `C90_any_time` and `C90_no_overlap` are met: a message that was delivered, and a `Read` that writes to the
array it lies in. -/
example : ∃ s s' d, Run .rfc5425 init [{ data := rfc5425.encode shortMsg }] (.ret (true, s)) ∧
    Run .rfc5425 s [{ data := [], scratch := [57] }] (.ret (true, s')) ∧ d ∈ s.out ∧ d.msg.string = shortMsg ∧
    s'.arr[27]? = some 57 := by
  obtain ⟨s, d, h1, h2, h3, _, ⟨h4, h5, h6⟩, _⟩ := short_run
  refine ⟨s, _, d, h1, .cons ?_ rfl .nil, by rw [h2]; simp, h3, ?_⟩
  · show 0 + 1 ≤ s.arr.length - s.off - s.done
    rw [h4, h5, h6]; simp only [readBuffer]; decide
  · show (overwrite s.arr (s.off + s.done) [57])[27]? = some 57
    unfold overwrite
    have : (s.arr.take (27 + 0)).length = 27 := by rw [List.length_take, h6]; simp only [readBuffer]; decide
    rw [h4, h5, List.append_assoc, List.getElem?_append_right (by rw [this]; decide), this]; rfl

end Syslog5424
