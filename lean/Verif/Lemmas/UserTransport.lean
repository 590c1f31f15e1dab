import Verif.Lemmas.Tokenizer
import Verif.Spec.UserTransport
import Verif.Lemmas.Sender
import Verif.Lemmas.Diagnosis
import Verif.Lemmas.RoundTrip
import Verif.Props.Parse
/-! # Lemmas on transports of the user -/
namespace Syslog5424.Tok
open Spec

/-- The read buffer is in its array. -/
structure Room (s : State) : Prop where
  size : s.arr.length = readBuffer
  fit : s.off + s.done ≤ readBuffer

theorem room_init : Room init := ⟨by simp [init], by simp [init]⟩

theorem Room.pending_length {s : State} (h : Room s) : s.pending.length = s.done := by
  have := h.size; have := h.fit
  simp only [State.pending, List.length_take, List.length_drop]; omega

section Reassembly
variable {α : Type} (u : UserTransport) (enc : α → Bytes) (ready : α → Bytes → Prop) (safe : α → Bytes → Prop)
  (Q : α → MsgImm → Option Err → Prop)

/-- `Parse` takes a frame that is ready and waits for a frame that is not. -/
structure UCuts (eof : Bool) (as : List α) : Prop where
  take : ∀ a ∈ as, ∀ suffix spare, ready a (enc a ++ suffix) →
    ∃ m e, u.parse (some ⟨enc a ++ suffix, spare⟩) eof = .ret (m, some ⟨suffix, spare⟩, e) ∧ Q a m e
  wait : ∀ a ∈ as, ∀ b spare, b ≠ [] → (b <+: enc a ∨ enc a <+: b) → ¬ ready a b → safe a b →
    ∃ m e, u.parse (some ⟨b, spare⟩) eof = .ret (m, none, e)
  len : ∀ a ∈ as, ∀ b, ready a b → (enc a).length ≤ b.length
  pos : ∀ a ∈ as, enc a ≠ []

variable {u enc ready safe Q}

theorem UCuts.drop {eof : Bool} {as : List α} (h : UCuts u enc ready safe Q eof as) (k : Nat) :
    UCuts u enc ready safe Q eof (as.drop k) :=
  ⟨fun a ha => h.take a (List.mem_of_mem_drop ha), fun a ha => h.wait a (List.mem_of_mem_drop ha),
   fun a ha => h.len a (List.mem_of_mem_drop ha), fun a ha => h.pos a (List.mem_of_mem_drop ha)⟩

theorem user_parseLoop_cuts {eof : Bool} : ∀ (as : List α), UCuts u enc ready safe Q eof as → ∀ (b spare : Bytes)
    (out : List (MsgImm × Option Err)) (fuel : Nat), b.length < fuel → b ≠ [] → b <+: as.flatMap enc →
    Safe enc ready safe as b →
    ∃ k b' ds, k ≤ as.length ∧ b = (as.take k).flatMap enc ++ b' ∧
      u.parseLoop eof fuel ⟨b, spare⟩ out = .ret (⟨b', spare⟩, out ++ ds) ∧
      Each (fun a d => Q a d.1 d.2) (as.take k) ds ∧ (b' = [] ∨ ∃ a, as[k]? = some a ∧ ¬ ready a b') := by
  intro as
  induction as with
  | nil => intro _ b spare out fuel _ hb hp; simp at hp; exact absurd hp hb
  | cons a as ih =>
    intro hc b spare out fuel hfuel hb hp hsafe
    obtain ⟨fuel, rfl⟩ : ∃ f, fuel = f + 1 := ⟨fuel - 1, by omega⟩
    have hcmp : b <+: enc a ∨ enc a <+: b := by
      rw [List.flatMap_cons] at hp
      exact List.prefix_or_prefix_of_prefix hp (List.prefix_append _ _)
    by_cases hr : ready a b
    · have hl := hc.len a (by simp) b hr
      obtain ⟨b1, rfl⟩ : ∃ b1, b = enc a ++ b1 := by
        rcases hcmp with h | ⟨x, rfl⟩
        · exact ⟨[], by rw [List.append_nil]; exact (h.eq_of_length (by have := h.length_le; omega))⟩
        · exact ⟨x, rfl⟩
      obtain ⟨m, e, hpa, hq⟩ := hc.take a (by simp) b1 spare hr
      unfold UserTransport.parseLoop
      rw [hpa]
      simp only [Out.ret_bind]
      by_cases h0 : b1 = []
      · subst h0
        refine ⟨1, [], [(m, e)], by simp, by simp, by simp, ?_, Or.inl rfl⟩
        simp only [List.take_succ_cons, List.take_zero]
        exact .cons hq .nil
      · have hlen0 : (Slice.mk b1 spare).len ≠ 0 := by simpa using h0
        rw [if_neg hlen0]
        have hpos := List.length_pos_iff.mpr (hc.pos a (by simp))
        have hp1 : b1 <+: as.flatMap enc := by
          rw [List.flatMap_cons] at hp
          exact (List.prefix_append_right_inj _).mp hp
        have hs1 : Safe enc ready safe as b1 := by
          have := Safe.drop (k := 1) (b := b1) hsafe (by simp)
          simpa using this
        have hc1 : UCuts u enc ready safe Q eof as := by simpa using hc.drop 1
        simp only [List.length_append] at hfuel
        obtain ⟨k, b', ds, g1, g2, g3, g4, g5⟩ := ih hc1 b1 spare (out ++ [(m, e)]) fuel (by omega) h0 hp1 hs1
        refine ⟨k + 1, b', (m, e) :: ds, by simp; omega, by rw [g2]; simp, by rw [g3]; simp, ?_, ?_⟩
        · rw [List.take_succ_cons]; exact .cons hq g4
        · simpa using g5
    · obtain ⟨m, e, hpa⟩ := hc.wait a (by simp) b spare hb hcmp hr (hsafe 0 a b (by simp) (by simp) hb hr)
      refine ⟨0, b, [], by simp, by simp, ?_, by simpa using Each.nil, Or.inr ⟨a, by simp, hr⟩⟩
      unfold UserTransport.parseLoop
      rw [hpa]
      simp

theorem user_step_flow {s : State} {r : Read} {as : List α} {R : Bytes} {k : Nat} (hm : Room s)
    (hfl : Flow enc ready Q as s R k) (hf : r.Fits s) (hp : R ++ r.data <+: as.flatMap enc)
    (hc : r.data ≠ [] → UCuts u enc ready safe Q (decide (r.err = .eof)) as ∧ Safe enc ready safe as (R ++ r.data)) :
    ∃ s', u.step s r = .ret (!decide (r.err = .eof), s') ∧ ∃ k', k ≤ k' ∧ Flow enc ready Q as s' (R ++ r.data) k' ∧ Room s' := by
  have hsz := hm.size
  have hft := hm.fit
  have hpl := hm.pending_length
  simp only [Read.Fits, State.room] at hf
  have hb : s.off + s.done + (r.data ++ r.scratch).length ≤ s.arr.length := by simp only [List.length_append]; omega
  have htake : (overwrite s.arr (s.off + s.done) (r.data ++ r.scratch)).take (s.off + s.done) = s.arr.take (s.off + s.done) :=
    overwrite_take hb
  have hdropw := overwrite_drop hb
  -- the buffer after the read
  have hbuf : (overwrite s.arr (s.off + s.done) (r.data ++ r.scratch)).drop s.off =
      s.pending ++ r.data ++ (r.scratch ++ s.arr.drop (s.off + s.done + (r.data ++ r.scratch).length)) := by
    have e1 : (overwrite s.arr (s.off + s.done) (r.data ++ r.scratch)) =
        s.arr.take (s.off + s.done) ++ (r.data ++ r.scratch ++ s.arr.drop (s.off + s.done + (r.data ++ r.scratch).length)) := by
      rw [← hdropw, ← htake, List.take_append_drop]
    rw [e1, List.drop_append_of_le_length (by simp; omega), List.drop_take]
    simp only [State.pending, Nat.add_sub_cancel_left, List.append_assoc]
  unfold UserTransport.step
  simp only
  by_cases h0 : r.data = []
  · have hs' : State.pending { s with arr := overwrite s.arr (s.off + s.done) (r.data ++ r.scratch),
                                      errs := if r.err = .other then s.errs + 1 else s.errs } = s.pending := by
      simp only [State.pending]
      rw [hbuf, h0, List.append_nil, List.take_left' hpl]
      rfl
    refine ⟨{ s with arr := overwrite s.arr (s.off + s.done) (r.data ++ r.scratch),
                     errs := if r.err = .other then s.errs + 1 else s.errs }, ?_, k, Nat.le_refl _, ?_,
              ⟨by simp only; rw [overwrite_length hb, hsz], hft⟩⟩
    · rw [h0]
      cases he : decide (r.err = .eof) <;> simp
    · rw [h0, List.append_nil]
      refine ⟨hfl.le, ?_, hfl.out, ?_⟩
      · rw [h0] at hs'; rw [hs']; exact hfl.bytes
      · rw [h0] at hs'; rw [hs']; exact hfl.wait
  · obtain ⟨hcuts, hsafe⟩ := hc h0
    have hd0 : r.data.length ≠ 0 := by simpa using h0
    rw [if_neg (by simp [hd0]), if_neg hd0]
    generalize he : (if r.err = ReadErr.other then s.errs + 1 else s.errs) = errs at *
    generalize ha : overwrite s.arr (s.off + s.done) (r.data ++ r.scratch) = arr at *
    have hal : arr.length = readBuffer := by rw [← ha, overwrite_length hb, hsz]
    simp only [List.length_append] at hb
    have hsub := Slice.sub_nat (s := Slice.exact (arr.drop s.off)) (i := 0) (j := r.data.length + s.done) (by omega)
      (by simp [Slice.exact]; omega)
    simp only [Slice.exact, List.drop_zero, List.append_nil] at hsub
    rw [show ((0 : Nat) : Int) = 0 from rfl] at hsub
    simp only [Slice.exact]
    rw [hsub]
    simp only [Out.ret_bind]
    have hdata : (arr.drop s.off).take (r.data.length + s.done) = s.pending ++ r.data := by
      rw [hbuf, List.take_left' (by simp; omega)]
    rw [hdata]
    have hRb : R ++ r.data = (as.take k).flatMap enc ++ (s.pending ++ r.data) := by rw [hfl.bytes]; simp
    have hpre : s.pending ++ r.data <+: (as.drop k).flatMap enc := by
      have : as.flatMap enc = (as.take k).flatMap enc ++ (as.drop k).flatMap enc := by
        rw [← List.flatMap_append, List.take_append_drop]
      rw [hRb, this] at hp
      exact (List.prefix_append_right_inj _).mp hp
    obtain ⟨k', b', ds, g1, g2, g3, g4, g5⟩ := user_parseLoop_cuts (as.drop k) (hcuts.drop k) (s.pending ++ r.data)
      ((arr.drop s.off).drop (r.data.length + s.done)) [] ((s.pending ++ r.data).length + 1) (by omega) (by simp [h0]) hpre
      (hsafe.drop hRb)
    rw [Slice.len_mk, g3]
    simp only [Out.ret_bind, Out.pure_eq, List.nil_append]
    simp only [List.length_drop] at g1
    have hlen : ((as.drop k).take k').flatMap enc ++ b' = s.pending ++ r.data := g2.symm
    have hll := congrArg List.length hlen
    simp only [List.length_append, hpl] at hll
    generalize hn : ((as.drop k).take k').flatMap enc = fl at *
    have hnn : r.data.length + s.done - b'.length = fl.length := by omega
    have hlb : (arr.drop (s.off + fl.length)) = b' ++ (arr.drop (s.off + fl.length + b'.length)) := by
      have e1 : arr.drop s.off = fl ++ b' ++ (arr.drop s.off).drop (fl.length + b'.length) := by
        rw [hlen, ← hdata, show fl.length + b'.length = r.data.length + s.done by omega, List.take_append_drop]
      rw [← List.drop_drop, e1, List.append_assoc, List.drop_left, List.drop_drop]
      simp [Nat.add_assoc]
    refine ⟨_, rfl, k + k', by omega, ?_, ?_⟩
    · have hpend : (advance { s with arr := arr, errs := errs } (r.data.length + s.done) b'.length
          (s.out ++ ds.map fun d => ⟨s.old.length, d.1, d.2⟩)).pending = b' := by
        unfold Tok.advance
        simp only [hnn]
        split
        · simp only [State.pending, List.drop_zero]
          rw [hlb, List.append_assoc, List.take_left]
        · simp only [State.pending]
          rw [hlb, List.take_left]
      have hout : (advance { s with arr := arr, errs := errs } (r.data.length + s.done) b'.length
          (s.out ++ ds.map fun d => ⟨s.old.length, d.1, d.2⟩)).out = s.out ++ ds.map fun d => ⟨s.old.length, d.1, d.2⟩ := by
        unfold Tok.advance; simp only; split <;> rfl
      have htk : as.take (k + k') = as.take k ++ (as.drop k).take k' := List.take_add
      have hkle := hfl.le
      refine ⟨by omega, ?_, ?_, ?_⟩
      · simp only [Slice.len_mk]
        rw [hpend, hRb, ← hlen, htk, List.flatMap_append, hn, List.append_assoc]
      · simp only [Slice.len_mk]
        rw [hout, htk]
        exact hfl.out.append (Spec.Each.map g4)
      · simp only [Slice.len_mk]
        rw [hpend]
        rcases g5 with g5 | ⟨a, g5, g6⟩
        · exact Or.inl g5
        · exact Or.inr ⟨a, by rw [List.getElem?_drop] at g5; exact g5, g6⟩
    · unfold Tok.advance
      simp only [hnn, Slice.len_mk, List.length_drop, hal]
      split
      · rename_i h
        refine ⟨by simp only [List.length_append, List.length_drop, List.length_replicate, hal]; omega, by simp only; omega⟩
      · exact ⟨hal, by simp only; omega⟩

/-- A run over the bytes of a stream of frames. -/
theorem user_run_flow {s : State} {rs : List Read} {o : Out (Bool × State)} (h : u.Run s rs o) :
    ∀ {as : List α} {R : Bytes} {k : Nat}, Room s → Flow enc ready Q as s R k → R ++ arrived rs <+: as.flatMap enc →
    (∀ pre r post, rs = pre ++ r :: post → r.data ≠ [] → ∃ safe,
      UCuts u enc ready safe Q (decide (r.err = .eof)) as ∧ Safe enc ready safe as (R ++ arrived (pre ++ [r]))) →
    ∃ b s', o = .ret (b, s') ∧ Room s' ∧ (b = true ↔ ∀ r ∈ rs, r.err ≠ .eof) ∧
      ∃ k', k ≤ k' ∧ Flow enc ready Q as s' (R ++ arrived rs) k' := by
  induction h with
  | nil =>
    intro as R k hm hfl _ _
    exact ⟨true, _, rfl, hm, by simp, k, Nat.le_refl _, by simpa [arrived] using hfl⟩
  | @cons s s1 r rs o hf hs _ ih =>
    intro as R k hm hfl hp hc
    have hp1 : R ++ r.data <+: as.flatMap enc := by
      refine List.IsPrefix.trans ?_ hp
      simp only [arrived, List.flatMap_cons, ← List.append_assoc]
      exact List.prefix_append _ _
    obtain ⟨s2, h1, k1, hk1, h2, hm1⟩ : ∃ s', u.step s r = .ret (!decide (r.err = .eof), s') ∧ ∃ k', k ≤ k' ∧
        Flow enc ready Q as s' (R ++ r.data) k' ∧ Room s' := by
      by_cases h0 : r.data = []
      · obtain ⟨s', a, b, c, d, e⟩ := user_step_flow (u := u) (safe := fun _ _ => True) hm hfl hf hp1 (fun h => absurd h0 h)
        exact ⟨s', a, b, c, d, e⟩
      · obtain ⟨safe, hsafe⟩ := hc [] r rs rfl h0
        obtain ⟨s', a, b, c, d, e⟩ := user_step_flow hm hfl hf hp1 (fun _ => by simpa [arrived] using hsafe)
        exact ⟨s', a, b, c, d, e⟩
    rw [h1] at hs
    simp only [Out.ret.injEq, Prod.mk.injEq, Bool.not_eq_true', decide_eq_false_iff_not] at hs
    obtain ⟨hne, rfl⟩ := hs
    obtain ⟨b, s', g1, g2, g3, k', g4, g5⟩ := ih hm1 h2 (by simpa [arrived] using hp) (fun pre r' post e h0 => by
      have := hc (r :: pre) r' post (by rw [e]; rfl) h0
      simpa [arrived] using this)
    refine ⟨b, s', g1, g2, ?_, k', by omega, by simpa [arrived] using g5⟩
    rw [g3]
    simp only [List.mem_cons, forall_eq_or_imp]
    exact ⟨fun h => ⟨hne, h⟩, fun h => h.2⟩
  | @last s r o hf hs hn =>
    intro as R k hm hfl hp hc
    have hp1 : R ++ r.data <+: as.flatMap enc := by simpa [arrived] using hp
    obtain ⟨s2, h1, k1, hk1, h2, hm1⟩ : ∃ s', u.step s r = .ret (!decide (r.err = .eof), s') ∧ ∃ k', k ≤ k' ∧
        Flow enc ready Q as s' (R ++ r.data) k' ∧ Room s' := by
      by_cases h0 : r.data = []
      · obtain ⟨s', a, b, c, d, e⟩ := user_step_flow (u := u) (safe := fun _ _ => True) hm hfl hf hp1 (fun h => absurd h0 h)
        exact ⟨s', a, b, c, d, e⟩
      · obtain ⟨safe, hsafe⟩ := hc [] r [] rfl h0
        obtain ⟨s', a, b, c, d, e⟩ := user_step_flow hm hfl hf hp1 (fun _ => by simpa [arrived] using hsafe)
        exact ⟨s', a, b, c, d, e⟩
    rw [h1] at hs
    subst hs
    refine ⟨_, s2, rfl, hm1, by simp, k1, hk1, by simpa [arrived] using h2⟩

theorem user_step_goes_on {s s' : State} {r : Read} (h : u.step s r = .ret (true, s')) : r.err ≠ .eof := by
  intro he
  unfold UserTransport.step at h
  simp only [he, decide_true] at h
  split at h
  · simp at h
  split at h
  · rename_i h1 h2; simp [h2] at h1
  · cases hx : Slice.sub (Slice.exact (List.drop s.off (overwrite s.arr (s.off + s.done) (r.data ++ r.scratch)))) 0
      ((r.data.length + s.done : Nat) : Int) with
    | panic => rw [hx] at h; simp at h
    | hang => rw [hx] at h; simp at h
    | ret d =>
      rw [hx] at h
      simp only [Out.ret_bind] at h
      cases hy : u.parseLoop true (d.len + 1) d [] with
      | panic => rw [hy] at h; simp at h
      | hang => rw [hy] at h; simp at h
      | ret d' => rw [hy] at h; simp at h

/-- A read that reports the end of file is the last one. -/
theorem user_run_eof_last {s : State} {rs : List Read} {o : Out (Bool × State)} (h : u.Run s rs o) :
    ∀ pre r post, rs = pre ++ r :: post → r.err = .eof → post = [] := by
  induction h with
  | nil => intro pre r post e; simp at e
  | cons hf hs _ ih =>
    intro pre r post e he
    cases pre with
    | nil =>
      simp only [List.nil_append, List.cons.injEq] at e
      rw [e.1] at hs
      exact absurd he (user_step_goes_on hs)
    | cons x pre =>
      simp only [List.cons_append, List.cons.injEq] at e
      exact ih pre r post e.2 he
  | last hf hs _ =>
    intro pre r post e he
    cases pre with
    | nil => simp at e; exact e.2
    | cons x pre => simp at e


end Reassembly

end Syslog5424.Tok

namespace Syslog5424
open Spec

/-! ## `Parse` when the transport gives a rest -/

theorem user_sdLoop_rest (u : UserTransport) (eof : Bool) (r : Slice) (f : Option Err) (data : Slice) (fuel : Nat) :
    ∀ t start index, u.sdLoop eof (some r) f data fuel t start index =
      sdLoop (some .rfc5425) eof (some r) f data fuel t start index := by
  induction fuel with
  | zero => intro t start index; rfl
  | succ fuel ih =>
    intro t start index
    simp only [UserTransport.sdLoop, sdLoop, UserTransport.parseReturn, parseReturn, ih]
    rfl

theorem user_parseBody_rest (u : UserTransport) (data r : Slice) (f : Option Err) (eof : Bool) :
    u.parseBody data (some r) f eof = parseBody data (some r) f (some .rfc5425) eof := by
  simp only [UserTransport.parseBody, parseBody, UserTransport.parseReturn, parseReturn, user_sdLoop_rest]
  rfl

theorem user_parse_rest {u : UserTransport} {b : Slice} {d : Option Slice} {r : Slice} {f : Option Err} {eof : Bool}
    (h : u.prefixStrip (some b) eof = .ret (d, some r, f)) :
    u.parse (some b) eof = parseBody (Slice.ofNil d) (some r) f (some .rfc5425) eof := by
  unfold UserTransport.parse
  rw [h]
  simp only [Out.ret_bind]
  rw [if_neg (by simp), user_parseBody_rest]

/-- What becomes of a payload that was found in front of a rest. -/
theorem parseBody_delivered (data r : Slice) (f : Option Err) (eof : Bool) (w : Bytes) :
    ∃ m e, parseBody data (some r) f (some .rfc5425) eof = .ret (m, some r, e) ∧ DeliveredFor ⟨w, data.vis, f⟩ m e := by
  by_cases hf : ∃ fs xs o, Frame data.vis fs xs o
  · obtain ⟨fs, xs, o, hf⟩ := hf
    obtain ⟨idx, txt, hL⟩ := hf.layout
    refine ⟨_, _, parseBody_complete (some .rfc5425) eof (some r) f data hL, ⟨fun _ => ?_, fun _ _ h => absurd ⟨_, _, _, hf⟩ h⟩⟩
    refine ⟨?_, ?_, fun h => absurd ⟨_, _, _, hf⟩ h, fun h => absurd h (frame_not_wrong hf)⟩
    · intro pri ts host app pid mid xs' o' hf'
      obtain ⟨idx', txt', hL'⟩ := hf'.layout
      have e1 := parseBody_complete (some .rfc5425) eof (some r) f data hL
      rw [parseBody_complete (some .rfc5425) eof (some r) f data hL'] at e1
      simp only [parseReturn, Out.ret.injEq, Prod.mk.injEq, MsgImm.mk.injEq] at e1
      obtain ⟨⟨_, rfl, rfl⟩, _⟩ := e1
      obtain ⟨a, b, c, d, e, f, h1, h2⟩ := (Layout.view (data := data) hL').readsAs
      simp only [List.cons.injEq, and_true] at h1
      obtain ⟨rfl, rfl, rfl, rfl, rfl, rfl⟩ := h1
      exact ⟨rfl, rfl, h2⟩
    · intro fs' xs' o' els hf' hx reg g hg
      obtain ⟨idx', txt', hL'⟩ := hf'.layout
      have e1 := parseBody_complete (some .rfc5425) eof (some r) f data hL
      rw [parseBody_complete (some .rfc5425) eof (some r) f data hL'] at e1
      simp only [parseReturn, Out.ret.injEq, Prod.mk.injEq, MsgImm.mk.injEq] at e1
      obtain ⟨⟨_, rfl, rfl⟩, _⟩ := e1
      exact (Layout.view (data := data) hL').elements hx reg g hg
  · rcases parseBody_sound (some .rfc5425) eof (some r) f data with ⟨e, h⟩ | ⟨fs, xs, o, idx, txt, h1, _⟩
    · refine ⟨_, _, h, ⟨?_, ?_⟩⟩
      · rintro (h0 | h0)
        · simp only at h0
          subst h0
          refine ⟨fun h => absurd ⟨_, _, _, h⟩ hf, fun h => absurd ⟨_, _, _, h⟩ hf, fun _ => ⟨by simp [dispatchError], rfl⟩, ?_⟩
          intro e' hw
          rw [parseBody_of_wrong (some .rfc5425) eof _ none data hw] at h
          simp only [dispatchError, Out.ret.injEq, Prod.mk.injEq] at h
          exact h.2.2.symm
        · exact absurd h0 hf
      · intro g hg _
        simp only at hg
        subst hg
        exact ⟨rfl, rfl⟩
    · exact absurd ⟨_, _, _, h1.frame⟩ hf

/-! ## the sender -/

theorem user_frames_cons (u : UserTransport) (e : Sender.Event) (es : List Sender.Event) :
    userFrames u (e :: es) = userFrames u [e] ++ userFrames u es := by
  cases e with
  | send m => simp only [userFrames]; split <;> simp
  | _ => rfl

/-- Only the frame that `Send` puts in the queue depends on the transport. -/
theorem user_inv_step {u : UserTransport} {fr : List Bytes} {s s' : Sender.State} {e : Sender.Event} (h : Sender.Inv fr s)
    (hs : u.senderStep s e = some s') : Sender.Inv (fr ++ userFrames u [e]) s' := by
  cases e with
  | send m =>
    obtain ⟨data, pos, lock, out, need, fin, comp, errs⟩ := h
    obtain ⟨queue, conns, output, locked, es, endAsked, endCompleted, errClosed, crashed, pc⟩ := s
    simp only at data pos lock out need fin comp errs
    have hcr : crashed = false := by
      cases crashed with
      | false => rfl
      | true => simp [UserTransport.senderStep] at hs
    subst hcr
    simp only [UserTransport.senderStep, Bool.false_eq_true, if_false] at hs
    simp only [userFrames]
    split at hs
    · rename_i b hb
      split at hs
      · simp at hs
      · rename_i hl
        simp only [Option.some.injEq] at hs
        subst hs
        rw [hb]
        have hp : Sender.pend pc = 0 := by
          cases pc <;> simp_all [Sender.holds, Sender.pend]
        rw [hp] at data
        refine ⟨?_, ?_, lock, out, need, fin, comp, errs⟩
        · simp only [hp, List.drop_zero] at data ⊢
          rw [List.flatten_append, ← List.append_assoc, data, List.flatten_append]
        · intro f k n hpc
          simp only at hpc
          subst hpc
          simp [Sender.holds] at lock
          exact absurd lock hl
    · rename_i e he
      simp only [Option.some.injEq] at hs
      subst hs
      rw [he]
      simpa using ⟨data, pos, lock, out, need, fin, comp, errs⟩
    · rename_i he
      simp only [Option.some.injEq] at hs
      subst hs
      rw [he]
      simpa using ⟨data, pos, lock, out, need, fin, comp, errs⟩
    · simp at hs
  | _ =>
    simp only [UserTransport.senderStep] at hs
    have := Sender.inv_step (t := .lfEnded) h hs
    simpa [userFrames, frames] using this

theorem user_inv_run {u : UserTransport} {es : List Sender.Event} : ∀ {fr : List Bytes} {s s' : Sender.State}, Sender.Inv fr s →
    u.senderRun s es = some s' → Sender.Inv (fr ++ userFrames u es) s' := by
  induction es with
  | nil => intro fr s s' h hs; simp [UserTransport.senderRun] at hs; subst hs; simpa [userFrames] using h
  | cons e r ih =>
    intro fr s s' h hs
    simp only [UserTransport.senderRun, Option.bind_eq_some_iff] at hs
    obtain ⟨s1, h1, h2⟩ := hs
    rw [user_frames_cons, ← List.append_assoc]
    exact ih (user_inv_step h h1) h2

end Syslog5424
