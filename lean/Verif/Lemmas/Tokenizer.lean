import Verif.Model.Tokenizer
import Verif.Lemmas.ParseCases
import Verif.Spec.Receive
/-! # Lemmas on the tokenizer -/
namespace Syslog5424.Tok
open Spec

/-! ## where the results of `Parse` are -/

/-- When `Parse` returns a rest, the data is: something, the bytes of the message, something, the rest; and
the message keeps the capacity of the data. -/
theorem parse_rest {t : Transport} {buf : Slice} {eof : Bool} {m : MsgImm} {r : Slice} {e : Option Err}
    (hcap : buf.cap < 2 ^ 63) (h : parse (some buf) (some t) eof = .ret (m, some r, e)) :
    r.spare = buf.spare ∧ (∃ pre, pre ≠ [] ∧ buf.vis = pre ++ r.vis) ∧
    (m = MsgImm.zero ∨ ∃ a b, buf.vis = a ++ m.buffer.vis ++ b ++ r.vis ∧ m.buffer.spare = b ++ r.vis ++ buf.spare) := by
  have term : ∀ c, t.term = some c → r.spare = buf.spare ∧ (∃ pre, pre ≠ [] ∧ buf.vis = pre ++ r.vis) ∧
      (m = MsgImm.zero ∨ ∃ a b, buf.vis = a ++ m.buffer.vis ++ b ++ r.vis ∧ m.buffer.spare = b ++ r.vis ++ buf.spare) := by
    intro c hc
    rcases parse_term_cases hc buf eof with ⟨_, h'⟩ | ⟨_, h'⟩ | ⟨_, _, _, _, h'⟩ | ⟨_, _, _, _, _, _, _, h'⟩ |
      ⟨_, _, _, _, _, _, _, _, _, _, h'⟩ | ⟨fs, xs, idx, pre, y, p, q, hL, hc, hb, hV, h'⟩
    · rw [h'] at h; simp at h
    · rw [h'] at h; simp at h
    · rw [h'] at h; simp at h
    · rw [h'] at h; simp at h
    · rw [h'] at h; simp at h
    · rw [h'] at h
      simp only [Out.ret.injEq, Prod.mk.injEq, Option.some.injEq] at h
      obtain ⟨rfl, rfl, rfl⟩ := h
      refine ⟨rfl, ⟨pre ++ y :: p ++ [c], by simp, by rw [hb]; simp⟩, Or.inr ⟨[], [c], by rw [hb]; simp, by simp⟩⟩
  cases t with
  | zeroEnded => exact term _ rfl
  | lfEnded => exact term _ rfl
  | rfc5425 =>
    unfold parse at h
    simp only at h
    rcases prefixStrip_cases buf eof hcap with ⟨_, hp⟩ | ⟨_, _, hp⟩ | ⟨n, _, _, _, _, hp⟩ |
      ⟨n, l, h20, hn, hi, ha, hr, hp⟩ | ⟨n, l, h20, hn, hi, ha, hr, hlt, hp⟩ | ⟨n, k, h20, hn, hi, ha, hk, hp⟩
    · rw [hp] at h; simp at h
    · rw [hp] at h
      have : parseBody ⟨[], []⟩ none (some .noHeader) (some .rfc5425) eof = .ret (MsgImm.zero, none, some .noHeader) := rfl
      simp [this] at h
    · rw [hp] at h
      have : parseBody ⟨[], []⟩ none (some .invHeader) (some .rfc5425) eof = .ret (MsgImm.zero, none, some .invHeader) := rfl
      simp [this] at h
    · rw [hp] at h; simp at h
    · rw [hp] at h
      cases eof with
      | false => simp at h
      | true =>
        simp only [if_true, Out.ret_bind] at h
        rw [if_neg (by simp)] at h
        rcases parseBody_truncated ⟨buf.vis.drop (n + 1), buf.spare⟩ with h' | ⟨fs, xs, idx, hL, h'⟩ | ⟨_, _, _, _, _, _, h'⟩ |
              ⟨fs, xs, y, tx, idx, txt, htx, hL, h'⟩ <;> rw [Slice.ofNil_some, h'] at h <;> simp at h
    · rw [hp] at h
      simp only [Out.ret_bind] at h
      rw [if_neg (by simp), Slice.ofNil_some] at h
      have e1 : buf.vis = buf.vis.take (n + 1) ++ (buf.vis.take (n + 1 + k)).drop (n + 1) ++ buf.vis.drop (n + 1 + k) := by
        have : buf.vis.take (n + 1 + k) = buf.vis.take (n + 1) ++ (buf.vis.take (n + 1 + k)).drop (n + 1) := by
          conv => lhs; rw [← List.take_append_drop (n + 1) (buf.vis.take (n + 1 + k))]
          rw [List.take_take, Nat.min_eq_left (by omega)]
        rw [← this, List.take_append_drop]
      have hne : buf.vis.take (n + 1) ≠ [] := by
        intro e
        have : (buf.vis.take (n + 1)).length = 0 := by rw [e]; rfl
        simp only [Slice.len] at hk
        simp only [List.length_take] at this; omega
      rcases parseBody_rest ⟨(buf.vis.take (n + 1 + k)).drop (n + 1), buf.vis.drop (n + 1 + k) ++ buf.spare⟩
        ⟨buf.vis.drop (n + 1 + k), buf.spare⟩ eof with ⟨e', h'⟩ | ⟨fs, xs, o, idx, txt, hL, h'⟩
      · rw [h'] at h
        simp only [Out.ret.injEq, Prod.mk.injEq, Option.some.injEq] at h
        obtain ⟨rfl, rfl, rfl⟩ := h
        refine ⟨rfl, ⟨_, ?_, e1⟩, Or.inl rfl⟩
        intro e
        rw [List.append_eq_nil_iff] at e
        exact hne e.1
      · rw [h'] at h
        simp only [Out.ret.injEq, Prod.mk.injEq, Option.some.injEq] at h
        obtain ⟨rfl, rfl, rfl⟩ := h
        refine ⟨rfl, ⟨_, ?_, e1⟩, Or.inr ⟨_, [], by simpa using e1, by simp⟩⟩
        intro e
        rw [List.append_eq_nil_iff] at e
        exact hne e.1

/-- The decoding loop: what is left is a suffix, and every message is in front of it. -/
theorem parseLoop_mem {t : Transport} {eof : Bool} (fuel : Nat) : ∀ {data : Slice} {out0 out : List (MsgImm × Option Err)}
    {data' : Slice}, data.cap < 2 ^ 63 → parseLoop t eof fuel data out0 = .ret (data', out) →
    data'.spare = data.spare ∧ (∃ pre, data.vis = pre ++ data'.vis) ∧ ∃ ds, out = out0 ++ ds ∧ ∀ d ∈ ds,
      d.1 = MsgImm.zero ∨ ∃ a b, data.vis = a ++ d.1.buffer.vis ++ b ++ data'.vis ∧
        d.1.buffer.spare = b ++ data'.vis ++ data.spare := by
  induction fuel with
  | zero => intro data out0 out data' _ h; simp [parseLoop] at h
  | succ fuel ih =>
    intro data out0 out data' hcap h
    unfold parseLoop at h
    cases hp : parse (some data) (some t) eof with
    | panic => rw [hp] at h; simp at h
    | hang => rw [hp] at h; simp at h
    | ret x =>
      obtain ⟨m, rest, e⟩ := x
      rw [hp] at h
      simp only [Out.ret_bind] at h
      cases rest with
      | none =>
        simp only [Out.pure_eq, Out.ret.injEq, Prod.mk.injEq] at h
        obtain ⟨rfl, rfl⟩ := h
        exact ⟨rfl, ⟨[], rfl⟩, [], by simp, by simp⟩
      | some r =>
        obtain ⟨h1, ⟨pre, hne, h2⟩, h3⟩ := parse_rest hcap hp
        simp only at h
        by_cases h0 : r.len = 0
        · rw [if_pos h0] at h
          simp only [Out.pure_eq, Out.ret.injEq, Prod.mk.injEq] at h
          obtain ⟨rfl, rfl⟩ := h
          refine ⟨h1, ⟨pre, h2⟩, _, rfl, ?_⟩
          intro d hd
          rw [List.mem_singleton] at hd
          subst hd
          exact h3
        · rw [if_neg h0] at h
          have hc : r.cap < 2 ^ 63 := by
            simp only [Slice.cap, h1, h2, List.length_append] at hcap ⊢; omega
          obtain ⟨g1, ⟨pre', g2⟩, ds, g3, g4⟩ := ih hc h
          refine ⟨by rw [g1, h1], ⟨pre ++ pre', by rw [h2, g2]; simp⟩, (m, e) :: ds, by rw [g3]; simp, ?_⟩
          intro d hd
          rw [List.mem_cons] at hd
          rcases hd with rfl | hd
          · rcases h3 with h3 | ⟨a, b, h3, h4⟩
            · exact Or.inl h3
            · right
              exact ⟨a, b ++ pre', by simp only; rw [h3, g2]; simp, by simp only; rw [h4, g2]; simp⟩
          · rcases g4 d hd with h3 | ⟨a, b, h3, h4⟩
            · exact Or.inl h3
            · right
              exact ⟨pre ++ a, b, by rw [h2, h3]; simp, by rw [h4, h1]⟩

/-! ## memory -/

/-- A delivered message lies in its array, before the part of the current array that may still be
written. -/
def Held (s : State) (d : Delivered) : Prop :=
  d.msg = MsgImm.zero ∨ ∃ a x z, (s.old ++ [s.arr])[d.arr]? = some a ∧ a = x ++ d.msg.buffer.vis ++ z ∧
    z.length = d.msg.buffer.spare.length ∧ (d.arr = s.old.length → x.length + d.msg.buffer.vis.length ≤ s.off)

structure Mem (s : State) : Prop where
  size : s.arr.length = readBuffer
  fit : s.off + s.done ≤ readBuffer
  big : 500 ≤ readBuffer - s.off
  held : ∀ d ∈ s.out, Held s d

theorem Held.bytesOf {s : State} {d : Delivered} (h : Held s d) : s.bytesOf d = d.msg.string := by
  unfold State.bytesOf MsgImm.string
  rcases h with h | ⟨a, x, z, h1, h2, h3, _⟩
  · rw [h]; simp [MsgImm.zero]
  · rw [h1]
    simp only [Option.getD_some]
    have e : a.length - d.msg.buffer.cap = x.length := by
      simp only [h2, Slice.cap, List.length_append, h3]; omega
    rw [e, h2, List.append_assoc, List.drop_left, Slice.len, List.take_left]

theorem mem_init : Mem init := by
  refine ⟨by simp [init], by simp [init], by simp only [init]; decide, by simp [init]⟩

theorem overwrite_length {a bs : Bytes} {i : Nat} (h : i + bs.length ≤ a.length) : (overwrite a i bs).length = a.length := by
  simp only [overwrite, List.length_append, List.length_take, List.length_drop]; omega

theorem overwrite_take {a bs : Bytes} {i : Nat} (h : i + bs.length ≤ a.length) : (overwrite a i bs).take i = a.take i := by
  simp only [overwrite, List.append_assoc]
  rw [List.take_left' (by simp; omega)]

theorem overwrite_drop {a bs : Bytes} {i : Nat} (h : i + bs.length ≤ a.length) :
    (overwrite a i bs).drop i = bs ++ a.drop (i + bs.length) := by
  simp only [overwrite, List.append_assoc]
  rw [List.drop_left' (by simp; omega)]

/-- Writing behind the delivered messages does not change them. -/
theorem Held.write {s : State} {d : Delivered} (h : Held s d) {i : Nat} {bs : Bytes} {e : Nat} (hi : s.off ≤ i)
    (hb : i + bs.length ≤ s.arr.length) :
    Held { s with arr := overwrite s.arr i bs, errs := e } d := by
  rcases h with h | ⟨a, x, z, h1, h2, h3, h4⟩
  · exact Or.inl h
  · right
    simp only
    by_cases hd : d.arr = s.old.length
    · have h4 := h4 hd
      have ha : a = s.arr := by
        rw [hd, List.getElem?_append_right (by omega)] at h1
        simp at h1; exact h1.symm
      have hpre : (overwrite s.arr i bs).take (x.length + d.msg.buffer.vis.length) = x ++ d.msg.buffer.vis := by
        have e1 := congrArg (List.take (x.length + d.msg.buffer.vis.length)) (overwrite_take hb)
        rw [List.take_take, List.take_take, Nat.min_eq_left (by omega)] at e1
        rw [e1, ← ha, h2, List.take_left' (by simp)]
      refine ⟨overwrite s.arr i bs, x, (overwrite s.arr i bs).drop (x.length + d.msg.buffer.vis.length), ?_, ?_, ?_, fun _ => h4⟩
      · rw [hd, List.getElem?_append_right (by omega)]; simp
      · rw [← hpre, List.take_append_drop]
      · rw [List.length_drop, overwrite_length hb, ← ha, h2]; simp; omega
    · have hlt : d.arr < s.old.length := by
        have := (List.getElem?_eq_some_iff.mp h1).1
        simp at this; omega
      refine ⟨a, x, z, ?_, h2, h3, fun h => absurd h hd⟩
      rw [List.getElem?_append_left hlt] at h1 ⊢
      exact h1

/-- Moving the buffer forward, or to a new array. -/
theorem Mem.advance {s : State} (h : Mem s) {lenRead done : Nat} {out : List Delivered} (hd : done ≤ lenRead)
    (hl : s.off + lenRead ≤ readBuffer) (ho : ∀ d ∈ out, Held { s with off := s.off + (lenRead - done) } d) :
    Mem (advance s lenRead done out) := by
  have hs := h.size
  unfold Tok.advance
  simp only
  split
  · rename_i hlt
    simp only [List.length_drop] at hlt
    refine ⟨?_, ?_, by simp [readBuffer], ?_⟩
    · simp only [List.length_append, List.length_drop, List.length_replicate]
      omega
    · simp only; omega
    · intro d hd
      rcases ho d hd with h | ⟨a, x, z, h1, h2, h3, h4⟩
      · exact Or.inl h
      · right
        simp only at h1 h4 ⊢
        have hlt : d.arr < (s.old ++ [s.arr]).length := (List.getElem?_eq_some_iff.mp h1).1
        refine ⟨a, x, z, ?_, h2, h3, ?_⟩
        · rw [List.getElem?_append_left hlt]; exact h1
        · intro he; simp only [List.length_append, List.length_singleton] at hlt he; omega
  · rename_i hge
    simp only [List.length_drop] at hge
    refine ⟨hs, ?_, ?_, ho⟩
    · simp only; omega
    · simp only; omega

/-- What a read does to the tokenizer, when it returns. -/
theorem step_mem {t : Transport} {s s' : State} {r : Read} {b : Bool} (h : Mem s) (hf : r.Fits s)
    (hs : step t s r = .ret (b, s')) : Mem s' ∧ s.out <+: s'.out := by
  have hsz := h.size
  have hft := h.fit
  simp only [Read.Fits, State.room] at hf
  have hb : s.off + s.done + (r.data ++ r.scratch).length ≤ s.arr.length := by simp only [List.length_append]; omega
  have hw : Mem { s with arr := overwrite s.arr (s.off + s.done) (r.data ++ r.scratch),
                         errs := if r.err = .other then s.errs + 1 else s.errs } := by
    refine ⟨by simp only; rw [overwrite_length hb, hsz], h.fit, h.big, ?_⟩
    intro d hd
    exact (h.held d hd).write (by omega) hb
  unfold step at hs
  simp only at hs
  split at hs
  · simp only [Out.ret.injEq, Prod.mk.injEq] at hs
    obtain ⟨rfl, rfl⟩ := hs
    exact ⟨hw, List.prefix_refl _⟩
  split at hs
  · simp only [Out.ret.injEq, Prod.mk.injEq] at hs
    obtain ⟨rfl, rfl⟩ := hs
    exact ⟨hw, List.prefix_refl _⟩
  generalize he : (if r.err = ReadErr.other then s.errs + 1 else s.errs) = errs at *
  generalize ha : overwrite s.arr (s.off + s.done) (r.data ++ r.scratch) = arr at *
  have hal : arr.length = readBuffer := hw.size
  simp only [List.length_append] at hb
  have hsub := Slice.sub_nat (s := Slice.exact (arr.drop s.off)) (i := 0) (j := r.data.length + s.done) (by omega)
    (by simp [Slice.exact]; omega)
  simp only [Slice.exact, List.drop_zero, List.append_nil] at hsub
  rw [show ((0 : Nat) : Int) = 0 from rfl] at hsub
  simp only [Slice.exact] at hs
  rw [hsub] at hs
  simp only [Out.ret_bind] at hs
  cases hp : parseLoop t (decide (r.err = ReadErr.eof)) (Slice.len ⟨List.take (r.data.length + s.done) (List.drop s.off arr),
      List.drop (r.data.length + s.done) (List.drop s.off arr)⟩ + 1) ⟨List.take (r.data.length + s.done) (List.drop s.off arr),
      List.drop (r.data.length + s.done) (List.drop s.off arr)⟩ [] with
  | panic => rw [hp] at hs; simp at hs
  | hang => rw [hp] at hs; simp at hs
  | ret x =>
    obtain ⟨data', ds⟩ := x
    rw [hp] at hs
    simp only [Out.ret_bind, Out.pure_eq, Out.ret.injEq, Prod.mk.injEq] at hs
    obtain ⟨rfl, rfl⟩ := hs
    have hcap : Slice.cap ⟨List.take (r.data.length + s.done) (List.drop s.off arr),
      List.drop (r.data.length + s.done) (List.drop s.off arr)⟩ < 2 ^ 63 := by
      simp only [Slice.cap, List.length_take, List.length_drop, hal, readBuffer]; omega
    obtain ⟨g1, ⟨pre, g2⟩, ds', g3, g4⟩ := parseLoop_mem _ hcap hp
    simp only at g1 g2 g4
    rw [List.nil_append] at g3; subst g3
    have hlen : pre.length + data'.len = r.data.length + s.done := by
      have := congrArg List.length g2
      simp only [List.length_take, List.length_drop, List.length_append, hal] at this
      simp only [Slice.len]; omega
    have harr : arr = arr.take s.off ++ (pre ++ data'.vis) ++ arr.drop (s.off + (r.data.length + s.done)) := by
      rw [← g2, ← List.drop_drop, List.append_assoc, List.take_append_drop, List.take_append_drop]
    refine ⟨hw.advance (by omega) (by simp only; omega) ?_, ?_⟩
    · intro d hd
      rw [List.mem_append] at hd
      rcases hd with hd | hd
      · rcases hw.held d hd with h | ⟨a, x, z, h1, h2, h3, h4⟩
        · exact Or.inl h
        · exact Or.inr ⟨a, x, z, h1, h2, h3, fun h => by have := h4 h; simp only at this ⊢; omega⟩
      · rw [List.mem_map] at hd
        obtain ⟨d', hd', rfl⟩ := hd
        rcases g4 d' hd' with h | ⟨a, b, h1, h2⟩
        · exact Or.inl h
        · right
          simp only
          have hab : pre = a ++ d'.1.buffer.vis ++ b := by
            have := h1.symm.trans g2
            exact (List.append_cancel_right this).symm
          refine ⟨arr, arr.take s.off ++ a, b ++ data'.vis ++ arr.drop (s.off + (r.data.length + s.done)), by simp, ?_, ?_, ?_⟩
          · rw [hab] at harr
            conv => lhs; rw [harr]
            simp
          · rw [h2]; simp
          · intro _
            have : pre.length = a.length + d'.1.buffer.vis.length + b.length := by rw [hab]; simp; omega
            simp only [List.length_append, List.length_take]
            omega
    · have : (advance { s with arr := arr, errs := errs } (r.data.length + s.done) data'.len
          (s.out ++ List.map (fun d => (⟨s.old.length, d.1, d.2⟩ : Delivered)) ds)).out =
          s.out ++ List.map (fun d => (⟨s.old.length, d.1, d.2⟩ : Delivered)) ds := by
        unfold Tok.advance; simp only; split <;> rfl
      rw [this]
      exact List.prefix_append _ _

theorem run_mem {t : Transport} {s : State} {rs : List Read} {o : Out (Bool × State)} (h : Run t s rs o) :
    Mem s → ∀ b s', o = .ret (b, s') → Mem s' ∧ s.out <+: s'.out := by
  induction h with
  | nil => intro hm b s' e; simp at e; rw [← e.2]; exact ⟨hm, List.prefix_refl _⟩
  | cons hf hs _ ih =>
    intro hm b s' e
    obtain ⟨h1, h2⟩ := step_mem hm hf hs
    obtain ⟨h3, h4⟩ := ih h1 b s' e
    exact ⟨h3, h2.trans h4⟩
  | last hf hs _ =>
    intro hm b s' e
    rw [e] at hs
    exact step_mem hm hf hs

/-! ## reassembly -/

theorem _root_.Syslog5424.Spec.Each.append {α β : Type} {R : α → β → Prop} {as as' : List α} {bs bs' : List β} (h : Each R as bs)
    (h' : Each R as' bs') : Each R (as ++ as') (bs ++ bs') := by
  induction h with
  | nil => exact h'
  | cons h _ ih => exact .cons h ih

theorem _root_.Syslog5424.Spec.Each.map {α β γ : Type} {R : α → β → Prop} {f : γ → β} {as : List α} {cs : List γ}
    (h : Each (fun a c => R a (f c)) as cs) : Each R as (cs.map f) := by
  induction h with
  | nil => exact .nil
  | cons h _ ih => exact .cons h ih

section Reassembly
variable {α : Type} (t : Transport) (enc : α → Bytes) (ready : α → Bytes → Prop) (safe : α → Bytes → Prop)
  (Q : α → MsgImm → Option Err → Prop)

/-- `Parse` takes a frame that is ready and waits for a frame that is not. -/
structure Cuts (eof : Bool) (as : List α) : Prop where
  take : ∀ a ∈ as, ∀ suffix spare, ready a (enc a ++ suffix) →
    ∃ m e, parse (some ⟨enc a ++ suffix, spare⟩) (some t) eof = .ret (m, some ⟨suffix, spare⟩, e) ∧ Q a m e
  wait : ∀ a ∈ as, ∀ b spare, b ≠ [] → (b <+: enc a ∨ enc a <+: b) → ¬ ready a b → safe a b →
    ∃ m e, parse (some ⟨b, spare⟩) (some t) eof = .ret (m, none, e)
  len : ∀ a ∈ as, ∀ b, ready a b → (enc a).length ≤ b.length
  pos : ∀ a ∈ as, enc a ≠ []

/-- Wherever the bytes `R` end, inside the frame `a`, that is a safe place. -/
def Safe (as : List α) (R : Bytes) : Prop :=
  ∀ k a b, as[k]? = some a → R = (as.take k).flatMap enc ++ b → b ≠ [] → ¬ ready a b → safe a b

variable {t enc ready safe Q}

theorem Cuts.drop {eof : Bool} {as : List α} (h : Cuts t enc ready safe Q eof as) (k : Nat) :
    Cuts t enc ready safe Q eof (as.drop k) :=
  ⟨fun a ha => h.take a (List.mem_of_mem_drop ha), fun a ha => h.wait a (List.mem_of_mem_drop ha),
   fun a ha => h.len a (List.mem_of_mem_drop ha), fun a ha => h.pos a (List.mem_of_mem_drop ha)⟩

theorem Safe.drop {as : List α} {R b : Bytes} {k : Nat} (h : Safe enc ready safe as R)
    (hR : R = (as.take k).flatMap enc ++ b) : Safe enc ready safe (as.drop k) b := by
  intro j a b' ha hb hne hr
  refine h (k + j) a b' (by rw [← ha, List.getElem?_drop]) ?_ hne hr
  rw [hR, hb, List.take_add, List.flatMap_append, List.append_assoc]

theorem parseLoop_cuts {eof : Bool} : ∀ (as : List α), Cuts t enc ready safe Q eof as → ∀ (b spare : Bytes)
    (out : List (MsgImm × Option Err)) (fuel : Nat), b.length < fuel → b ≠ [] → b <+: as.flatMap enc →
    Safe enc ready safe as b →
    ∃ k b' ds, k ≤ as.length ∧ b = (as.take k).flatMap enc ++ b' ∧
      parseLoop t eof fuel ⟨b, spare⟩ out = .ret (⟨b', spare⟩, out ++ ds) ∧
      Each (fun a d => Q a d.1 d.2) (as.take k) ds ∧ (b' = [] ∨ ∃ a, as[k]? = some a ∧ ¬ ready a b') := by
  intro as
  induction as with
  | nil => intro _ b spare out fuel _ hb hp; simp at hp; exact absurd hp hb
  | cons a as ih =>
    intro hc b spare out fuel hfuel hb hp hsafe
    obtain ⟨fuel, rfl⟩ : ∃ f, fuel = f + 1 := ⟨fuel - 1, by omega⟩
    have hcmp : b <+: enc a ∨ enc a <+: b := by
      rw [List.flatMap_cons] at hp
      exact List.prefix_or_prefix_of_prefix hp (List.prefix_append _ _)
    by_cases hr : ready a b
    · have hl := hc.len a (by simp) b hr
      obtain ⟨b1, rfl⟩ : ∃ b1, b = enc a ++ b1 := by
        rcases hcmp with h | ⟨x, rfl⟩
        · exact ⟨[], by rw [List.append_nil]; exact (h.eq_of_length (by have := h.length_le; omega))⟩
        · exact ⟨x, rfl⟩
      obtain ⟨m, e, hpa, hq⟩ := hc.take a (by simp) b1 spare hr
      unfold parseLoop
      rw [hpa]
      simp only [Out.ret_bind]
      by_cases h0 : b1 = []
      · subst h0
        refine ⟨1, [], [(m, e)], by simp, by simp, by simp, ?_, Or.inl rfl⟩
        simp only [List.take_succ_cons, List.take_zero]
        exact .cons hq .nil
      · have hlen0 : (Slice.mk b1 spare).len ≠ 0 := by simpa using h0
        rw [if_neg hlen0]
        have hpos := List.length_pos_iff.mpr (hc.pos a (by simp))
        have hp1 : b1 <+: as.flatMap enc := by
          rw [List.flatMap_cons] at hp
          exact (List.prefix_append_right_inj _).mp hp
        have hs1 : Safe enc ready safe as b1 := by
          have := Safe.drop (k := 1) (b := b1) hsafe (by simp)
          simpa using this
        have hc1 : Cuts t enc ready safe Q eof as := by simpa using hc.drop 1
        simp only [List.length_append] at hfuel
        obtain ⟨k, b', ds, g1, g2, g3, g4, g5⟩ := ih hc1 b1 spare (out ++ [(m, e)]) fuel (by omega) h0 hp1 hs1
        refine ⟨k + 1, b', (m, e) :: ds, by simp; omega, by rw [g2]; simp, by rw [g3]; simp, ?_, ?_⟩
        · rw [List.take_succ_cons]; exact .cons hq g4
        · simpa using g5
    · obtain ⟨m, e, hpa⟩ := hc.wait a (by simp) b spare hb hcmp hr (hsafe 0 a b (by simp) (by simp) hb hr)
      refine ⟨0, b, [], by simp, by simp, ?_, by simpa using Each.nil, Or.inr ⟨a, by simp, hr⟩⟩
      unfold parseLoop
      rw [hpa]
      simp

/-- The bytes received and not yet delivered. -/
def State.pending (s : State) : Bytes := (s.arr.drop s.off).take s.done

variable (enc ready Q) in
/-- The state after receiving `R`: the first `k` frames are delivered, the rest is pending. -/
structure Flow (as : List α) (s : State) (R : Bytes) (k : Nat) : Prop where
  le : k ≤ as.length
  bytes : R = (as.take k).flatMap enc ++ s.pending
  out : Each (fun a d => Q a d.msg d.err) (as.take k) s.out
  wait : s.pending = [] ∨ ∃ a, as[k]? = some a ∧ ¬ ready a s.pending

theorem Mem.pending_length {s : State} (h : Mem s) : s.pending.length = s.done := by
  have := h.size; have := h.fit
  simp only [State.pending, List.length_take, List.length_drop]; omega

theorem step_flow {s : State} {r : Read} {as : List α} {R : Bytes} {k : Nat} (hm : Mem s)
    (hfl : Flow enc ready Q as s R k) (hf : r.Fits s) (hp : R ++ r.data <+: as.flatMap enc)
    (hc : r.data ≠ [] → Cuts t enc ready safe Q (decide (r.err = .eof)) as ∧ Safe enc ready safe as (R ++ r.data)) :
    ∃ s', step t s r = .ret (!decide (r.err = .eof), s') ∧ ∃ k', k ≤ k' ∧ Flow enc ready Q as s' (R ++ r.data) k' ∧
      (r.data ≠ [] → ∀ n, s'.done + n = s.done + r.data.length →
        s'.off = if readBuffer - (s.off + n) < 500 then 0 else s.off + n) ∧
      (r.data = [] → s'.off = s.off ∧ s'.done = s.done ∧ s'.out = s.out) := by
  have hsz := hm.size
  have hft := hm.fit
  have hpl := hm.pending_length
  simp only [Read.Fits, State.room] at hf
  have hb : s.off + s.done + (r.data ++ r.scratch).length ≤ s.arr.length := by simp only [List.length_append]; omega
  have htake : (overwrite s.arr (s.off + s.done) (r.data ++ r.scratch)).take (s.off + s.done) = s.arr.take (s.off + s.done) :=
    overwrite_take hb
  have hdropw := overwrite_drop hb
  -- the buffer after the read
  have hbuf : (overwrite s.arr (s.off + s.done) (r.data ++ r.scratch)).drop s.off =
      s.pending ++ r.data ++ (r.scratch ++ s.arr.drop (s.off + s.done + (r.data ++ r.scratch).length)) := by
    have e1 : (overwrite s.arr (s.off + s.done) (r.data ++ r.scratch)) =
        s.arr.take (s.off + s.done) ++ (r.data ++ r.scratch ++ s.arr.drop (s.off + s.done + (r.data ++ r.scratch).length)) := by
      rw [← hdropw, ← htake, List.take_append_drop]
    rw [e1, List.drop_append_of_le_length (by simp; omega), List.drop_take]
    simp only [State.pending, Nat.add_sub_cancel_left, List.append_assoc]
  unfold step
  simp only
  by_cases h0 : r.data = []
  · have hs' : State.pending { s with arr := overwrite s.arr (s.off + s.done) (r.data ++ r.scratch),
                                      errs := if r.err = .other then s.errs + 1 else s.errs } = s.pending := by
      simp only [State.pending]
      rw [hbuf, h0, List.append_nil, List.take_left' hpl]
      rfl
    refine ⟨{ s with arr := overwrite s.arr (s.off + s.done) (r.data ++ r.scratch),
                     errs := if r.err = .other then s.errs + 1 else s.errs }, ?_, k, Nat.le_refl _, ?_, fun h => absurd h0 h,
              fun _ => ⟨rfl, rfl, rfl⟩⟩
    · rw [h0]
      cases he : decide (r.err = .eof) <;> simp
    · rw [h0, List.append_nil]
      refine ⟨hfl.le, ?_, hfl.out, ?_⟩
      · rw [h0] at hs'; rw [hs']; exact hfl.bytes
      · rw [h0] at hs'; rw [hs']; exact hfl.wait
  · obtain ⟨hcuts, hsafe⟩ := hc h0
    have hd0 : r.data.length ≠ 0 := by simpa using h0
    rw [if_neg (by simp [hd0]), if_neg hd0]
    generalize he : (if r.err = ReadErr.other then s.errs + 1 else s.errs) = errs at *
    generalize ha : overwrite s.arr (s.off + s.done) (r.data ++ r.scratch) = arr at *
    have hal : arr.length = readBuffer := by rw [← ha, overwrite_length hb, hsz]
    simp only [List.length_append] at hb
    have hsub := Slice.sub_nat (s := Slice.exact (arr.drop s.off)) (i := 0) (j := r.data.length + s.done) (by omega)
      (by simp [Slice.exact]; omega)
    simp only [Slice.exact, List.drop_zero, List.append_nil] at hsub
    rw [show ((0 : Nat) : Int) = 0 from rfl] at hsub
    simp only [Slice.exact]
    rw [hsub]
    simp only [Out.ret_bind]
    have hdata : (arr.drop s.off).take (r.data.length + s.done) = s.pending ++ r.data := by
      rw [hbuf, List.take_left' (by simp; omega)]
    rw [hdata]
    have hRb : R ++ r.data = (as.take k).flatMap enc ++ (s.pending ++ r.data) := by rw [hfl.bytes]; simp
    have hpre : s.pending ++ r.data <+: (as.drop k).flatMap enc := by
      have : as.flatMap enc = (as.take k).flatMap enc ++ (as.drop k).flatMap enc := by
        rw [← List.flatMap_append, List.take_append_drop]
      rw [hRb, this] at hp
      exact (List.prefix_append_right_inj _).mp hp
    obtain ⟨k', b', ds, g1, g2, g3, g4, g5⟩ := parseLoop_cuts (as.drop k) (hcuts.drop k) (s.pending ++ r.data)
      ((arr.drop s.off).drop (r.data.length + s.done)) [] ((s.pending ++ r.data).length + 1) (by omega) (by simp [h0]) hpre
      (hsafe.drop hRb)
    rw [Slice.len_mk, g3]
    simp only [Out.ret_bind, Out.pure_eq, List.nil_append]
    simp only [List.length_drop] at g1
    have hlen : ((as.drop k).take k').flatMap enc ++ b' = s.pending ++ r.data := g2.symm
    have hll := congrArg List.length hlen
    simp only [List.length_append, hpl] at hll
    generalize hn : ((as.drop k).take k').flatMap enc = fl at *
    have hnn : r.data.length + s.done - b'.length = fl.length := by omega
    have hlb : (arr.drop (s.off + fl.length)) = b' ++ (arr.drop (s.off + fl.length + b'.length)) := by
      have e1 : arr.drop s.off = fl ++ b' ++ (arr.drop s.off).drop (fl.length + b'.length) := by
        rw [hlen, ← hdata, show fl.length + b'.length = r.data.length + s.done by omega, List.take_append_drop]
      rw [← List.drop_drop, e1, List.append_assoc, List.drop_left, List.drop_drop]
      simp [Nat.add_assoc]
    refine ⟨_, rfl, k + k', by omega, ?_, ?_, fun h => absurd h h0⟩
    · have hpend : (advance { s with arr := arr, errs := errs } (r.data.length + s.done) b'.length
          (s.out ++ ds.map fun d => ⟨s.old.length, d.1, d.2⟩)).pending = b' := by
        unfold Tok.advance
        simp only [hnn]
        split
        · simp only [State.pending, List.drop_zero]
          rw [hlb, List.append_assoc, List.take_left]
        · simp only [State.pending]
          rw [hlb, List.take_left]
      have hout : (advance { s with arr := arr, errs := errs } (r.data.length + s.done) b'.length
          (s.out ++ ds.map fun d => ⟨s.old.length, d.1, d.2⟩)).out = s.out ++ ds.map fun d => ⟨s.old.length, d.1, d.2⟩ := by
        unfold Tok.advance; simp only; split <;> rfl
      have htk : as.take (k + k') = as.take k ++ (as.drop k).take k' := List.take_add
      have hkle := hfl.le
      refine ⟨by omega, ?_, ?_, ?_⟩
      · simp only [Slice.len_mk]
        rw [hpend, hRb, ← hlen, htk, List.flatMap_append, hn, List.append_assoc]
      · simp only [Slice.len_mk]
        rw [hout, htk]
        exact hfl.out.append (Spec.Each.map g4)
      · simp only [Slice.len_mk]
        rw [hpend]
        rcases g5 with g5 | ⟨a, g5, g6⟩
        · exact Or.inl g5
        · exact Or.inr ⟨a, by rw [List.getElem?_drop] at g5; exact g5, g6⟩
    · intro _ n hn'
      have hdn : (advance { s with arr := arr, errs := errs } (r.data.length + s.done) b'.length
          (s.out ++ ds.map fun d => ⟨s.old.length, d.1, d.2⟩)).done = b'.length := by
        unfold Tok.advance; simp only; split <;> rfl
      simp only [Slice.len_mk] at hn' ⊢
      rw [hdn] at hn'
      have : n = fl.length := by omega
      subst this
      unfold Tok.advance
      simp only [hnn, List.length_drop, hal]
      by_cases h : readBuffer - (s.off + fl.length) < 500
      · simp only [if_pos h]
      · simp only [if_neg h]

/-- A run over the bytes of a stream of frames. -/
theorem run_flow {s : State} {rs : List Read} {o : Out (Bool × State)} (h : Run t s rs o) :
    ∀ {as : List α} {R : Bytes} {k : Nat}, Mem s → Flow enc ready Q as s R k → R ++ arrived rs <+: as.flatMap enc →
    (∀ pre r post, rs = pre ++ r :: post → r.data ≠ [] → ∃ safe,
      Cuts t enc ready safe Q (decide (r.err = .eof)) as ∧ Safe enc ready safe as (R ++ arrived (pre ++ [r]))) →
    ∃ b s', o = .ret (b, s') ∧ Mem s' ∧ (b = true ↔ ∀ r ∈ rs, r.err ≠ .eof) ∧
      ∃ k', k ≤ k' ∧ Flow enc ready Q as s' (R ++ arrived rs) k' := by
  induction h with
  | nil =>
    intro as R k hm hfl _ _
    exact ⟨true, _, rfl, hm, by simp, k, Nat.le_refl _, by simpa [arrived] using hfl⟩
  | @cons s s1 r rs o hf hs _ ih =>
    intro as R k hm hfl hp hc
    have hp1 : R ++ r.data <+: as.flatMap enc := by
      refine List.IsPrefix.trans ?_ hp
      simp only [arrived, List.flatMap_cons, ← List.append_assoc]
      exact List.prefix_append _ _
    obtain ⟨s2, h1, k1, hk1, h2, _⟩ : ∃ s', step t s r = .ret (!decide (r.err = .eof), s') ∧ ∃ k', k ≤ k' ∧
        Flow enc ready Q as s' (R ++ r.data) k' ∧ True := by
      by_cases h0 : r.data = []
      · obtain ⟨s', a, b, c, d, _⟩ := step_flow (t := t) (safe := fun _ _ => True) hm hfl hf hp1 (fun h => absurd h0 h)
        exact ⟨s', a, b, c, d, trivial⟩
      · obtain ⟨safe, hsafe⟩ := hc [] r rs rfl h0
        obtain ⟨s', a, b, c, d, _⟩ := step_flow hm hfl hf hp1 (fun _ => by simpa [arrived] using hsafe)
        exact ⟨s', a, b, c, d, trivial⟩
    have hm1 := (step_mem hm hf h1).1
    rw [h1] at hs
    simp only [Out.ret.injEq, Prod.mk.injEq, Bool.not_eq_true', decide_eq_false_iff_not] at hs
    obtain ⟨hne, rfl⟩ := hs
    obtain ⟨b, s', g1, g2, g3, k', g4, g5⟩ := ih hm1 h2 (by simpa [arrived] using hp) (fun pre r' post e h0 => by
      have := hc (r :: pre) r' post (by rw [e]; rfl) h0
      simpa [arrived] using this)
    refine ⟨b, s', g1, g2, ?_, k', by omega, by simpa [arrived] using g5⟩
    rw [g3]
    simp only [List.mem_cons, forall_eq_or_imp]
    exact ⟨fun h => ⟨hne, h⟩, fun h => h.2⟩
  | @last s r o hf hs hn =>
    intro as R k hm hfl hp hc
    have hp1 : R ++ r.data <+: as.flatMap enc := by simpa [arrived] using hp
    obtain ⟨s2, h1, k1, hk1, h2, _⟩ : ∃ s', step t s r = .ret (!decide (r.err = .eof), s') ∧ ∃ k', k ≤ k' ∧
        Flow enc ready Q as s' (R ++ r.data) k' ∧ True := by
      by_cases h0 : r.data = []
      · obtain ⟨s', a, b, c, d, _⟩ := step_flow (t := t) (safe := fun _ _ => True) hm hfl hf hp1 (fun h => absurd h0 h)
        exact ⟨s', a, b, c, d, trivial⟩
      · obtain ⟨safe, hsafe⟩ := hc [] r [] rfl h0
        obtain ⟨s', a, b, c, d, _⟩ := step_flow hm hfl hf hp1 (fun _ => by simpa [arrived] using hsafe)
        exact ⟨s', a, b, c, d, trivial⟩
    have hm1 := (step_mem hm hf h1).1
    rw [h1] at hs
    subst hs
    refine ⟨_, s2, rfl, hm1, by simp, k1, hk1, by simpa [arrived] using h2⟩

theorem step_goes_on {s s' : State} {r : Read} (h : step t s r = .ret (true, s')) : r.err ≠ .eof := by
  intro he
  unfold step at h
  simp only [he, decide_true] at h
  split at h
  · simp at h
  split at h
  · rename_i h1 h2; simp [h2] at h1
  · cases hx : Slice.sub (Slice.exact (List.drop s.off (overwrite s.arr (s.off + s.done) (r.data ++ r.scratch)))) 0
      ((r.data.length + s.done : Nat) : Int) with
    | panic => rw [hx] at h; simp at h
    | hang => rw [hx] at h; simp at h
    | ret d =>
      rw [hx] at h
      simp only [Out.ret_bind] at h
      cases hy : parseLoop t true (d.len + 1) d [] with
      | panic => rw [hy] at h; simp at h
      | hang => rw [hy] at h; simp at h
      | ret d' => rw [hy] at h; simp at h

/-- A read that reports the end of file is the last one. -/
theorem run_eof_last {s : State} {rs : List Read} {o : Out (Bool × State)} (h : Run t s rs o) :
    ∀ pre r post, rs = pre ++ r :: post → r.err = .eof → post = [] := by
  induction h with
  | nil => intro pre r post e; simp at e
  | cons hf hs _ ih =>
    intro pre r post e he
    cases pre with
    | nil =>
      simp only [List.nil_append, List.cons.injEq] at e
      rw [e.1] at hs
      exact absurd he (step_goes_on hs)
    | cons x pre =>
      simp only [List.cons_append, List.cons.injEq] at e
      exact ih pre r post e.2 he
  | last hf hs _ =>
    intro pre r post e he
    cases pre with
    | nil => simp at e; exact e.2
    | cons x pre => simp at e

theorem flow_init {as : List α} : Flow enc ready Q as init [] 0 := by
  have : init.pending = [] := by simp [init, State.pending]
  exact ⟨by simp, by rw [this]; simp, by simpa [init] using Each.nil, Or.inl this⟩

theorem step_errs {s0 s : State} {r : Read} {b : Bool} (h : step t s0 r = .ret (b, s)) :
    s.errs = s0.errs + ([r].filter fun r => r.err = .other).length := by
  have hval : (if r.err = .other then s0.errs + 1 else s0.errs) = s0.errs + ([r].filter fun r => r.err = .other).length := by
    by_cases he : r.err = .other <;> simp [he]
  rw [← hval]
  unfold step at h
  simp only at h
  split at h
  · simp only [Out.ret.injEq, Prod.mk.injEq] at h; rw [← h.2]
  split at h
  · simp only [Out.ret.injEq, Prod.mk.injEq] at h; rw [← h.2]
  · cases hx : Slice.sub (Slice.exact (List.drop s0.off (overwrite s0.arr (s0.off + s0.done) (r.data ++ r.scratch)))) 0
      ((r.data.length + s0.done : Nat) : Int) with
    | panic => rw [hx] at h; simp at h
    | hang => rw [hx] at h; simp at h
    | ret d =>
      rw [hx] at h
      simp only [Out.ret_bind] at h
      cases hy : parseLoop t (decide (r.err = .eof)) (d.len + 1) d [] with
      | panic => rw [hy] at h; simp at h
      | hang => rw [hy] at h; simp at h
      | ret d' =>
        rw [hy] at h
        simp only [Out.ret_bind, Out.pure_eq, Out.ret.injEq, Prod.mk.injEq] at h
        rw [← h.2]
        unfold advance; simp only; split <;> rfl

/-- The tokenizer reports the failed reads on the error channel, and nothing else. -/
theorem run_errs {s0 : State} {rs : List Read} {o : Out (Bool × State)} (h : Run t s0 rs o) : ∀ b s, o = .ret (b, s) →
    s.errs = s0.errs + (rs.filter fun r => r.err = .other).length := by
  induction h with
  | nil => intro b s e; simp at e; rw [← e.2]; simp
  | cons hf hs _ ih =>
    intro b s e
    rw [ih b s e, step_errs hs, List.filter_cons]
    split <;> simp_all <;> omega
  | last hf hs _ => intro b s e; rw [e] at hs; exact step_errs hs

end Reassembly

end Syslog5424.Tok
