import Verif.Lemmas.Receiver
import Verif.Props.Tokenizer
/-! # Properties C44, C45, C46, C63: the receiver -/
namespace Syslog5424
open Spec Recv

/-! ## C44 -/

/-- C44: with any number of connections, any queue length and any interleaving, what `Receive` has returned from
connection `i`, followed by what waits in the queue and by what its goroutine is about to send, is exactly what the
calls of `Read` on that connection decode to: in order, each pair exactly once, nothing else. -/
theorem C44_order (t : Transport) (lenQueue : Nat) (es : List Event) (s : State) (h : run t lenQueue init es = some s)
    (hc : s.crashed = false) (i : Nat) (c : Conn) (hi : s.conns[i]? = some c) :
    ∃ b tok, Tok.Run t Tok.init (readsOf i es) (.ret (b, tok)) ∧
      ofConn i s.got ++ ofConn i s.pipeline ++ c.pending = tok.out := by
  obtain ⟨a, _, d⟩ := (inv_run h hc).conn i c hi
  exact ⟨_, _, a, d⟩

/-- C44: nothing that `Receive` returns comes from elsewhere than the accepted connections. -/
theorem C44_nothing_else (t : Transport) (lenQueue : Nat) (es : List Event) (s : State) (h : run t lenQueue init es = some s)
    (hc : s.crashed = false) (x : Nat × Tok.Delivered) (hx : x ∈ s.got) : x.1 < s.conns.length := by
  rcases Nat.lt_or_ge x.1 s.conns.length with h1 | h1
  · exact h1
  · have := ((inv_run h hc).none x.1 h1).1
    have hm : x.2 ∈ ofConn x.1 s.got := List.mem_filterMap.mpr ⟨x, hx, by simp⟩
    rw [this] at hm; simp at hm

/-- C53 (receiving half, C44 with C40): on a connection over which the RFC 5425 frames of the payloads `ps` have arrived, and whose
messages have all been received, `Receive` has returned exactly these messages from it, in order. Partial as
`C40_all_delivered_partial`: frames of at least 20 bytes. -/
theorem C53_receive_partial (lenQueue : Nat) (es : List Event) (s : State) (h : run .rfc5425 lenQueue init es = some s)
    (hc : s.crashed = false) (i : Nat) (c : Conn) (hi : s.conns[i]? = some c) (hp : c.pending = []) (hq : ofConn i s.pipeline = [])
    (ps : List Bytes) (hps : ∀ p ∈ ps, p.length < 2 ^ 62 ∧ 20 ≤ (Transport.rfc5425.encode p).length)
    (hst : arrived (readsOf i es) = stream .rfc5425 ps) :
    Each (fun p d => Conveys p d.msg d.err) ps (ofConn i s.got) := by
  obtain ⟨b, tok, h1, h2⟩ := C44_order _ _ es s h hc i c hi
  obtain ⟨b', tok', h3, _, h4⟩ := C40_all_delivered_partial ps hps _ _ h1 hst
  simp only [Out.ret.injEq, Prod.mk.injEq] at h3
  obtain ⟨_, rfl⟩ := h3
  rw [hp, hq, List.append_nil, List.append_nil] at h2
  rw [h2]; exact h4

/-- C44: when something waits (in the queue, or in a goroutine that is not reporting an error while `End` has not
taken effect), a call of `Receive` can return it. -/
theorem C44_progress (t : Transport) (lenQueue : Nat) (s : State) (hc : s.crashed = false) :
    (∀ x r, s.pipeline = x :: r → ∃ s', step t lenQueue s .recv = some s' ∧ s'.got = s.got ++ [x]) ∧
    (∀ (i : Nat) (c : Conn) (d : Tok.Delivered) (r : List Tok.Delivered), s.conns[i]? = some c → c.pending = d :: r → c.errPending = false →
      s.pipeline = [] → s.pipelineClosed = false →
      ∃ s', step t lenQueue s (.handoff i) = some s' ∧ s'.got = s.got ++ [(i, d)]) := by
  refine ⟨fun x r h => ⟨{ s with pipeline := r, got := s.got ++ [x] }, by simp [step, hc, h], rfl⟩, fun i c d r h1 h2 h3 h4 h5 =>
    ⟨{ s with got := s.got ++ [(i, d)] }.setConn i { c with pending := r }, by simp [step, hc, h1, h2, h3, h4, h5], rfl⟩⟩

/-- C44: the queue never holds more than its length, and messages of different connections are not mixed up: what is
put in the queue is a pair of the connection it is labelled with (see `C44_order`). -/
theorem C44_queue_bound (t : Transport) (lenQueue : Nat) (es : List Event) (s : State) (h : run t lenQueue init es = some s) :
    s.pipeline.length ≤ lenQueue := by
  refine run_induction (P := fun _ s => s.pipeline.length ≤ lenQueue) (by simp [init]) ?_ h
  intro es e s s' _ ih hs
  unfold step at hs
  split at hs
  · simp at hs
  cases e <;> simp only at hs <;> repeat' (split at hs)
  all_goals first
    | (simp only [Option.some.injEq] at hs; subst hs; first | exact ih | (simp only [State.setConn, List.length_append, List.length_singleton]; omega) | skip)
    | (simp at hs; done)
  · rename_i hp; rw [hp] at ih; simp only [List.length_cons] at ih; simp only; omega

theorem drain (t : Transport) (lenQueue : Nat) (i : Nat) (l : List Tok.Delivered) (s : State) (c : Conn) (hc : s.crashed = false)
    (hi : s.conns[i]? = some c) (hp : c.pending = l) (he : c.errPending = false) (hq : s.pipeline = []) (hcl : s.pipelineClosed = false) :
    run t lenQueue s (List.replicate l.length (.handoff i)) = some ({ s with got := s.got ++ l.map fun d => (i, d) }.setConn i { c with pending := [] }) := by
  induction l generalizing s c with
  | nil =>
    simp only [List.length_nil, List.replicate_zero, run, List.map_nil, List.append_nil, State.setConn, Option.some.injEq]
    have : ({ c with pending := [] } : Conn) = c := by rw [← hp]
    rw [this]
    have hl : s.conns.set i c = s.conns := by
      apply List.ext_getElem? ; intro j
      by_cases hj : i = j
      · subst hj; rw [List.getElem?_set_self (List.getElem?_eq_some_iff.mp hi).1, hi]
      · rw [List.getElem?_set_ne hj]
    rw [hl]
  | cons d l ih =>
    have hlt := (List.getElem?_eq_some_iff.mp hi).1
    have h1 : step t lenQueue s (.handoff i) = some ({ s with got := s.got ++ [(i, d)] }.setConn i { c with pending := l }) := by
      simp [step, hc, hi, hp, he, hq, hcl]
    simp only [List.length_cons, List.replicate_succ, run, h1, Option.bind_some]
    generalize hs1 : ({ s with got := s.got ++ [(i, d)] } : State).setConn i { c with pending := l } = s1
    have := ih s1 { c with pending := l } (by rw [← hs1]; exact hc) (by rw [← hs1]; simp only [State.setConn]; rw [List.getElem?_set_self hlt])
      rfl he (by rw [← hs1]; exact hq) (by rw [← hs1]; exact hcl)
    rw [this, ← hs1]
    simp [State.setConn]

/-- C44: whatever the calls of `Read` of a connection decode to can be received entirely. -/
theorem C44_realised (t : Transport) (lenQueue : Nat) (rs : List Tok.Read) (tok : Tok.State)
    (h : Tok.Run t Tok.init rs (.ret (true, tok))) :
    ∃ es s, run t lenQueue init es = some s ∧ s.crashed = false ∧ readsOf 0 es = rs ∧ ofConn 0 s.got = tok.out := by
  have gen : ∀ (rs : List Tok.Read) (t0 tok : Tok.State) (s : State) (c : Conn), Tok.Mem t0 → Tok.Run t t0 rs (.ret (true, tok)) → s.crashed = false →
      s.conns = [c] → c.tok = t0 → c.running = true → c.pending = [] → c.errPending = false → s.pipeline = [] → s.pipelineClosed = false →
      s.errs = 0 → ofConn 0 s.got = t0.out →
      ∃ es s', run t lenQueue s es = some s' ∧ s'.crashed = false ∧ readsOf 0 es = rs ∧ ofConn 0 s'.got = tok.out := by
    intro rs
    induction rs with
    | nil =>
      intro t0 tok s c _ hr h1 h2 h3 h4 h5 h6 h7 h8 h9 h10
      generalize ho : (Out.ret (true, tok) : Out (Bool × Tok.State)) = o at hr
      cases hr
      simp only [Out.ret.injEq, Prod.mk.injEq, true_and] at ho
      subst ho
      exact ⟨[], s, rfl, h1, rfl, h10⟩
    | cons r rs ih =>
      intro t0 tok s c hm hr h1 h2 h3 h4 h5 h6 h7 h8 h9 h10
      cases hr with
      | last _ _ hn => exact absurd rfl (hn tok)
      | @cons _ t1 _ _ _ hf hs hr =>
        obtain ⟨hm1, hpre⟩ := Tok.run_mem (.cons hf hs .nil) hm _ _ rfl
        let c1 : Conn := { c with tok := t1, pending := t1.out.drop t0.out.length, errPending := decide (r.err = .other), running := true }
        have e1 : step t lenQueue s (.read 0 r) = some { s with conns := [c1] } := by
          subst h3
          simp [step, h1, h2, h4, h5, h6, hf, hs, State.setConn, c1]
        let c2 : Conn := { c1 with errPending := false }
        obtain ⟨es1, e2, hes1⟩ : ∃ es1, run t lenQueue { s with conns := [c1] } es1 = some { s with conns := [c2] } ∧ readsOf 0 es1 = [] := by
          by_cases hre : r.err = .other
          · refine ⟨[.sendErr 0, .recvErr], ?_, rfl⟩
            simp [run, step, h1, c1, hre, h9, errCap, State.setConn, c2]
          · exact ⟨[], by simp [run, c1, c2, hre], rfl⟩
        have e3 := drain t lenQueue 0 (t1.out.drop t0.out.length) { s with conns := [c2] } c2 h1 rfl rfl rfl h7 h8
        let s3 : State := { s with conns := [{ c2 with pending := [] }], got := s.got ++ (t1.out.drop t0.out.length).map fun d => (0, d) }
        have e3' : run t lenQueue { s with conns := [c2] } (List.replicate (t1.out.drop t0.out.length).length (.handoff 0)) = some s3 := by
          rw [e3]; rfl
        have hg : ofConn 0 s3.got = t1.out := by
          have : ∀ l : List Tok.Delivered, ofConn 0 (l.map fun d => (0, d)) = l := by
            intro l; induction l with
            | nil => rfl
            | cons x l ih => rw [List.map_cons, ofConn_cons, ih, ofConn_one]; rfl
          simp only [s3]
          rw [ofConn_append, h10, this]
          obtain ⟨w, hw⟩ := hpre
          rw [← hw]; simp
        obtain ⟨es, s', g1, g2, g3, g4⟩ := ih t1 tok s3 { c2 with pending := [] } hm1 hr h1 rfl rfl rfl rfl rfl h7 h8 h9 hg
        refine ⟨.read 0 r :: (es1 ++ List.replicate (t1.out.drop t0.out.length).length (.handoff 0) ++ es), s', ?_, g2, ?_, g4⟩
        · simp only [run, e1, Option.bind_some]
          rw [run_append, run_append, e2, Option.bind_some, e3', Option.bind_some, g1]
        · have hrep : ∀ n, readsOf 0 (List.replicate n (.handoff 0)) = [] := by
            intro n; induction n with
            | zero => rfl
            | succ n _ => simp [readsOf, List.replicate_succ]
          have : readsOf 0 (Event.read 0 r :: (es1 ++ List.replicate (t1.out.drop t0.out.length).length (.handoff 0) ++ es)) =
              readsOf 0 [.read 0 r] ++ readsOf 0 (es1 ++ List.replicate (t1.out.drop t0.out.length).length (.handoff 0) ++ es) := by
            rw [← readsOf_append]; rfl
          rw [this, readsOf_append, readsOf_append, hes1, hrep, g3]
          simp [readsOf]
  obtain ⟨es, s, g1, g2, g3, g4⟩ := gen rs Tok.init tok ⟨.select, [], false, 0, false, [Conn.new], 0, [], false⟩ Conn.new Tok.mem_init h
    rfl rfl rfl rfl rfl rfl rfl rfl rfl rfl
  refine ⟨.tau :: .acceptOk :: es, s, g1, g2, ?_, g4⟩
  rw [← g3]; rfl

/-- The two messages of C40, received. -/
example (lenQueue : Nat) : ∃ es s, run .rfc5425 lenQueue init es = some s ∧ s.crashed = false ∧
    Each (fun p d => Conveys p d.msg d.err) samplePayloads (ofConn 0 s.got) := by
  have hlen : ∀ p ∈ samplePayloads, p.length < 2 ^ 62 ∧ 20 ≤ (Transport.rfc5425.encode p).length := by decide +kernel
  obtain ⟨s, h⟩ := C42_progress_partial samplePayloads (by decide +kernel) _ (Nat.le_refl _)
  rw [List.take_length] at h
  have hrec : ∀ l : Bytes, arrived (l.map fun x => ({ data := [x] } : Tok.Read)) = l := by
    intro l; induction l with
    | nil => rfl
    | cons x l ih => simp only [arrived, List.map_cons, List.flatMap_cons] at ih ⊢; rw [ih]; rfl
  obtain ⟨b, s', h1, _, h2⟩ := C40_all_delivered_partial samplePayloads hlen _ _ h (hrec _)
  simp only [Out.ret.injEq, Prod.mk.injEq] at h1
  obtain ⟨_, rfl⟩ := h1
  obtain ⟨es, s1, g1, g2, _, g4⟩ := C44_realised .rfc5425 lenQueue _ _ h
  exact ⟨es, s1, g1, g2, by rw [g4]; exact h2⟩

/-! ## C45 -/

/-- C45 is violated: when a connection decodes a message after `End` took effect, the program crashes (it sends on a
closed channel). `r` is any read in which the first message of the connection arrives. -/
theorem C45_end_violated (t : Transport) (lenQueue : Nat) (r : Tok.Read) (hf : r.Fits Tok.init) (he : r.err ≠ .other)
    (b : Bool) (tok : Tok.State) (hst : Tok.step t Tok.init r = .ret (b, tok)) (hout : tok.out ≠ []) :
    ∃ s, run t lenQueue init [.tau, .acceptOk, .endCall, .tau, .tau, .read 0 r, .sendMsg 0] = some s ∧ s.crashed = true := by
  obtain ⟨d, l, hl⟩ := List.exists_cons_of_ne_nil hout
  have h0 : Tok.init.out = [] := rfl
  have hdrop : List.drop Tok.init.out.length tok.out = d :: l := by rw [h0, hl]; rfl
  have key : ∃ s, run t lenQueue init [.tau, .acceptOk, .endCall, .tau, .tau, .read 0 r] = some s ∧ s.crashed = false ∧
      s.pipelineClosed = true ∧ ∃ c, s.conns[0]? = some c ∧ c.pending = d :: l ∧ c.errPending = false := by
    refine ⟨⟨.closeListener, [], true, 0, true, [⟨tok, d :: l, false, b, false⟩], 0, [], false⟩, ?_, rfl, rfl, _, rfl, rfl, rfl⟩
    simp [run, step, Recv.init, Conn.new, hf, hst, State.setConn, hdrop, he]
  obtain ⟨s, h1, h2, h3, c, h4, h5, h6⟩ := key
  refine ⟨{ s with crashed := true }, ?_, rfl⟩
  have := run_append t lenQueue init [.tau, .acceptOk, .endCall, .tau, .tau, .read 0 r] [.sendMsg 0]
  rw [h1] at this
  simp only [List.cons_append, List.nil_append] at this
  rw [this]
  simp [run, step, h2, h3, h4, h5, h6]

/-- A read as in `C45_end_violated`. -/
example : ∃ (r : Tok.Read) (b : Bool) (tok : Tok.State), r.Fits Tok.init ∧ r.err ≠ .other ∧
    Tok.step .lfEnded Tok.init r = .ret (b, tok) ∧ tok.out ≠ [] := by
  obtain ⟨s, d, h, h2, _, _⟩ := C41_structured_data_violated
  cases h with
  | cons hf hs hr =>
    generalize ho : (Out.ret (true, s) : Out (Bool × Tok.State)) = o at hr
    cases hr with
    | nil =>
      simp only [Out.ret.injEq, Prod.mk.injEq, true_and] at ho
      subst ho
      exact ⟨_, _, _, hf, by simp, hs, by rw [h2]; simp⟩
  | last hf hs hn => exact absurd rfl (hn s)

/-- Once the pipeline is closed, a goroutine with a decoded message can only crash the program. -/
theorem C45_doomed_violated (t : Transport) (lenQueue : Nat) (s : State) (hcl : s.pipelineClosed = true) (i : Nat) (c : Conn)
    (hi : s.conns[i]? = some c) (hp : c.pending ≠ []) (es : List Event) (s' : State) (h : run t lenQueue s es = some s') :
    s'.crashed = true ∨ ∃ c', s'.conns[i]? = some c' ∧ c'.pending = c.pending ∧
      (c'.errPending = false → ∃ s2, step t lenQueue s' (.sendMsg i) = some s2 ∧ s2.crashed = true) := by
  have key : s'.crashed = true ∨ (s'.pipelineClosed = true ∧ ∃ c', s'.conns[i]? = some c' ∧ c'.pending = c.pending) := by
    refine run_induction (P := fun _ s => s.crashed = true ∨ (s.pipelineClosed = true ∧ ∃ c', s.conns[i]? = some c' ∧ c'.pending = c.pending))
      (Or.inr ⟨hcl, c, hi, rfl⟩) ?_ h
    intro es e s s' _ ih hs
    have hnc := step_not_crashed hs
    rcases ih with ih | ⟨h1, c', h2, h3⟩
    · rw [hnc] at ih; simp at ih
    unfold step at hs
    rw [hnc] at hs
    simp only [Bool.false_eq_true, if_false] at hs
    have set_ok : ∀ (s1 : State) (j : Nat) (cj cj' : Conn), s1.pipelineClosed = true → s1.conns = s.conns → s.conns[j]? = some cj →
        (j = i → cj'.pending = cj.pending) → (s1.setConn j cj').pipelineClosed = true ∧
        ∃ c', (s1.setConn j cj').conns[i]? = some c' ∧ c'.pending = c.pending := by
      intro s1 j cj cj' g1 g2 g3 g4
      refine ⟨g1, ?_⟩
      by_cases hji : j = i
      · subst hji
        rw [h2] at g3
        simp only [Option.some.injEq] at g3
        subst g3
        refine ⟨cj', ?_, by rw [g4 rfl]; exact h3⟩
        simp only [State.setConn, g2]
        rw [List.getElem?_set_self (List.getElem?_eq_some_iff.mp h2).1]
      · refine ⟨c', ?_, h3⟩
        simp only [State.setConn, g2]
        rw [List.getElem?_set_ne hji]; exact h2
    cases e with
    | tau =>
      simp only at hs
      split at hs
      · simp only [Option.some.injEq] at hs; subst hs; exact Or.inr ⟨h1, c', h2, h3⟩
      · split at hs
        · simp only [Option.some.injEq] at hs; subst hs; exact Or.inr ⟨h1, c', h2, h3⟩
        · simp at hs
      · simp only [Option.some.injEq] at hs; subst hs; exact Or.inr ⟨rfl, c', h2, h3⟩
      · simp only [Option.some.injEq] at hs; subst hs; exact Or.inr ⟨h1, c', h2, h3⟩
      · simp at hs
    | acceptOk =>
      simp only at hs
      split at hs
      · simp only [Option.some.injEq] at hs; subst hs
        refine Or.inr ⟨h1, c', ?_, h3⟩
        simp only
        rw [List.getElem?_append_left (List.getElem?_eq_some_iff.mp h2).1]; exact h2
      · simp at hs
    | acceptErr =>
      simp only at hs
      split at hs
      · simp only [Option.some.injEq] at hs; subst hs; exact Or.inr ⟨h1, c', h2, h3⟩
      · simp at hs
    | nilStart =>
      simp only at hs
      split at hs
      · simp only [Option.some.injEq] at hs; subst hs; exact Or.inl rfl
      · simp at hs
    | read j r =>
      simp only at hs
      split at hs
      · simp at hs
      rename_i cj hj
      split at hs
      rotate_left
      · simp at hs
      rename_i hg
      split at hs
      · simp only [Option.some.injEq] at hs; subst hs
        refine Or.inr (set_ok s j cj _ h1 rfl hj ?_)
        rintro rfl
        rw [h2] at hj
        simp only [Option.some.injEq] at hj
        subst hj
        have : c'.pending = [] := List.eq_nil_of_length_eq_zero hg.2.1
        rw [this] at h3
        exact absurd h3.symm hp
      · simp only [Option.some.injEq] at hs; subst hs; exact Or.inl rfl
      · simp at hs
    | sendErr j =>
      simp only at hs
      split at hs
      · simp at hs
      rename_i cj hj
      split at hs
      · simp only [Option.some.injEq] at hs; subst hs
        exact Or.inr (set_ok { s with errs := s.errs + 1 } j cj _ h1 rfl hj (fun _ => rfl))
      · simp at hs
    | sendMsg j =>
      simp only at hs
      split at hs
      · simp at hs
      split at hs
      · simp at hs
      split at hs
      · simp at hs
      · simp only [Option.some.injEq] at hs; subst hs; exact Or.inl rfl
    | close j =>
      simp only at hs
      split at hs
      · simp at hs
      rename_i cj hj
      split at hs
      · simp only [Option.some.injEq] at hs; subst hs
        exact Or.inr (set_ok s j cj _ h1 rfl hj (fun _ => rfl))
      · simp at hs
    | recv =>
      simp only at hs
      split at hs
      · simp at hs
      · simp only [Option.some.injEq] at hs; subst hs; exact Or.inr ⟨h1, c', h2, h3⟩
    | handoff j =>
      simp only at hs
      split at hs
      · simp at hs
      split at hs
      · simp at hs
      split at hs
      · simp at hs
      · rename_i hn; simp [h1] at hn
    | recvClosed =>
      simp only at hs
      split at hs
      · simp only [Option.some.injEq] at hs; subst hs; exact Or.inr ⟨h1, c', h2, h3⟩
      · simp at hs
    | endCall =>
      simp only at hs
      split at hs
      · simp only [Option.some.injEq] at hs; subst hs; exact Or.inl rfl
      · simp only [Option.some.injEq] at hs; subst hs; exact Or.inr ⟨h1, c', h2, h3⟩
    | recvErr =>
      simp only at hs
      split at hs
      · simp only [Option.some.injEq] at hs; subst hs; exact Or.inr ⟨h1, c', h2, h3⟩
      · simp at hs
  rcases key with key | ⟨h1, c', h2, h3⟩
  · exact Or.inl key
  · by_cases hc : s'.crashed = true
    · exact Or.inl hc
    refine Or.inr ⟨c', h2, h3, fun he => ?_⟩
    obtain ⟨d, l, hl⟩ := List.exists_cons_of_ne_nil hp
    refine ⟨{ s' with crashed := true }, ?_, rfl⟩
    rw [hl] at h3
    simp [step, hc, h2, h3, he, h1]

/-- C45 is violated: `End` does not stop a blocked `Accept`: while no connection comes and `Accept` does not fail,
the accept loop does not stop, and `Receive` never reports the end. -/
theorem C45_accept_blocks_violated (t : Transport) (lenQueue : Nat) (s : State) (hpc : s.pc = .accept) (hcl : s.pipelineClosed = false)
    (es : List Event) (s' : State) (h : run t lenQueue s es = some s') (hno : ∀ e ∈ es, e ≠ .acceptOk ∧ e ≠ .acceptErr) :
    s'.pc = .accept ∧ s'.pipelineClosed = false ∧ step t lenQueue s' .recvClosed = none := by
  have key : s'.pc = .accept ∧ s'.pipelineClosed = false := by
    refine run_induction (P := fun es s => (∀ e ∈ es, e ≠ .acceptOk ∧ e ≠ .acceptErr) → s.pc = .accept ∧ s.pipelineClosed = false)
      (fun _ => ⟨hpc, hcl⟩) ?_ h hno
    intro es e s s' _ ih hs hno
    obtain ⟨h1, h2⟩ := ih fun e he => hno e (by simp [he])
    obtain ⟨n1, n2⟩ := hno e (by simp)
    unfold step at hs
    split at hs
    · simp at hs
    cases e <;> simp only [h1] at hs <;> repeat' (split at hs)
    all_goals first
      | (simp at hs; done)
      | (simp only [Option.some.injEq] at hs; subst hs; simp [State.setConn, h1, h2]; done)
      | exact absurd rfl n1
      | exact absurd rfl n2
  refine ⟨key.1, key.2, ?_⟩
  simp [step, key.2]

/-- A state as in `C45_accept_blocks_violated`, after `End`. -/
example : ∃ s, run .lfEnded 0 init [.tau, .endCall] = some s ∧ s.pc = .accept ∧ s.pipelineClosed = false ∧ s.ended = true :=
  ⟨_, rfl, rfl, rfl, rfl⟩

/-- The accept events of a history. -/
def Spec.accepts (es : List Event) : Nat := (es.filter fun e => match e with | .acceptOk => true | .acceptErr => true | _ => false).length

/-- C45 (partial): after `End` at most one more call of `Accept` returns: then the loop stops. -/
theorem C45_one_accept_partial (t : Transport) (lenQueue : Nat) (s : State) (hend : s.ended = true) (es : List Event) (s' : State)
    (h : run t lenQueue s es = some s') : accepts es ≤ 1 := by
  have key : s'.ended = true ∧ accepts es + (if s'.pc = .accept then 1 else 0) ≤ (if s.pc = .accept then 1 else 0) := by
    refine run_induction (P := fun es s' => s'.ended = true ∧ accepts es + (if s'.pc = .accept then 1 else 0) ≤ (if s.pc = .accept then 1 else 0))
      ⟨hend, by simp [accepts]⟩ ?_ h
    intro es e s1 s2 _ ih hs
    obtain ⟨h1, h2⟩ := ih
    have happ : accepts (es ++ [e]) = accepts es + accepts [e] := by simp [accepts]
    rw [happ]
    unfold step at hs
    split at hs
    · simp at hs
    cases e <;> simp only at hs <;> repeat' (split at hs)
    all_goals first
      | (simp at hs; done)
      | (simp only [Option.some.injEq] at hs; subst hs; simp_all [accepts, State.setConn]; done)
      | (simp only [Option.some.injEq] at hs; subst hs; simp_all [accepts, State.setConn]; omega)
  have h1 := key.2
  have h2 : (if s.pc = .accept then 1 else 0) ≤ 1 := by split <;> omega
  omega

/-- C45 (partial): the complete list of what crashes the receiver: a second `End`; a goroutine started after a failed
`Accept`; bytes on which the decoder panics (see C62); a message decoded after the pipeline was closed. Missing: that
none of these happens. -/
theorem C45_causes_partial (t : Transport) (lenQueue : Nat) (s s' : State) (e : Event) (h : step t lenQueue s e = some s') :
    s'.crashed = true ↔
      (e = .endCall ∧ s.ended = true) ∨ (e = .nilStart ∧ 0 < s.nilConns) ∨
      (∃ i r c, e = .read i r ∧ s.conns[i]? = some c ∧ Tok.step t c.tok r = .panic) ∨
      (∃ i c, e = .sendMsg i ∧ s.conns[i]? = some c ∧ c.pending ≠ [] ∧ s.pipelineClosed = true) := by
  have hnc := step_not_crashed h
  unfold step at h
  rw [hnc] at h
  simp only [Bool.false_eq_true, if_false] at h
  cases e with
  | tau =>
    simp only at h
    repeat' (split at h)
    all_goals first
      | (simp at h; done)
      | (simp only [Option.some.injEq] at h; subst h; simp [hnc])
  | acceptOk => simp only at h; split at h <;> simp at h; subst h; simp [hnc]
  | acceptErr => simp only at h; split at h <;> simp at h; subst h; simp [hnc]
  | nilStart => simp only at h; split at h <;> simp at h; rename_i hn; subst h; simp [hn]
  | read i r =>
    simp only at h
    split at h
    · simp at h
    rename_i c hc
    split at h
    rotate_left
    · simp at h
    split at h
    · rename_i hst
      simp only [Option.some.injEq] at h; subst h
      constructor
      · intro hcr; simp [State.setConn, hnc] at hcr
      · rintro (h1 | h1 | ⟨j, r', c', h1, h2, h3⟩ | ⟨j, c', h1, _⟩)
        · exact absurd h1.1 (by simp)
        · exact absurd h1.1 (by simp)
        · simp only [Event.read.injEq] at h1
          obtain ⟨rfl, rfl⟩ := h1
          rw [hc] at h2
          simp only [Option.some.injEq] at h2
          subst h2
          rw [hst] at h3; simp at h3
        · simp at h1
    · rename_i hst
      simp only [Option.some.injEq] at h; subst h
      simp only [true_iff]
      exact Or.inr (Or.inr (Or.inl ⟨i, r, c, rfl, hc, hst⟩))
    · simp at h
  | sendErr i =>
    simp only at h
    repeat' (split at h)
    all_goals first
      | (simp at h; done)
      | (simp only [Option.some.injEq] at h; subst h; simp [hnc, State.setConn])
  | sendMsg i =>
    simp only at h
    split at h
    · simp at h
    rename_i c hc
    split at h
    · simp at h
    rename_i d l hp
    split at h
    · simp at h
    split at h
    · rename_i hcl
      simp only [Option.some.injEq] at h; subst h
      simp only [true_iff]
      exact Or.inr (Or.inr (Or.inr ⟨i, c, rfl, hc, by rw [hp]; simp, hcl⟩))
    · rename_i hcl
      split at h
      · simp only [Option.some.injEq] at h; subst h
        simp [hnc, State.setConn, hcl]
      · simp at h
  | close i =>
    simp only at h
    repeat' (split at h)
    all_goals first
      | (simp at h; done)
      | (simp only [Option.some.injEq] at h; subst h; simp [hnc, State.setConn])
  | recv =>
    simp only at h
    split at h
    · simp at h
    · simp only [Option.some.injEq] at h; subst h; simp [hnc]
  | handoff i =>
    simp only at h
    repeat' (split at h)
    all_goals first
      | (simp at h; done)
      | (simp only [Option.some.injEq] at h; subst h; simp [hnc, State.setConn])
  | recvClosed => simp only at h; split at h <;> simp at h; subst h; simp [hnc]
  | endCall =>
    simp only at h
    split at h
    · rename_i he
      simp only [Option.some.injEq] at h; subst h; simp [he]
    · rename_i he
      simp only [Option.some.injEq] at h; subst h; simp [hnc, he]
  | recvErr => simp only at h; split at h <;> simp at h; subst h; simp [hnc]

/-! ## C46 -/

/-- C46 is violated: after a failed `Accept` a goroutine with a nil connection is started, and from then on, whatever
happens, it crashes the program as soon as it runs. -/
theorem C46_accept_error_violated (t : Transport) (lenQueue : Nat) (s s1 : State) (h1 : run t lenQueue s [.acceptErr, .tau] = some s1)
    (es : List Event) (s' : State) (h : run t lenQueue s1 es = some s') :
    s'.crashed = true ∨ ∃ s2, step t lenQueue s' .nilStart = some s2 ∧ s2.crashed = true := by
  have h0 : 0 < s1.nilConns := by
    simp only [run] at h1
    cases ha : step t lenQueue s .acceptErr with
    | none => rw [ha] at h1; simp at h1
    | some s2 =>
      rw [ha] at h1
      simp only [Option.bind_some] at h1
      have hnc := step_not_crashed ha
      have hpc : s2.pc = .errSend ∧ s2.crashed = false := by
        unfold step at ha
        rw [hnc] at ha
        simp only [Bool.false_eq_true, if_false] at ha
        split at ha <;> simp at ha
        rw [← ha]; exact ⟨rfl, rfl⟩
      cases hb : step t lenQueue s2 .tau with
      | none => rw [hb] at h1; simp at h1
      | some s3 =>
        rw [hb] at h1
        simp only [Option.bind_some, Option.some.injEq] at h1
        subst h1
        unfold step at hb
        rw [hpc.2] at hb
        simp only [Bool.false_eq_true, if_false, hpc.1] at hb
        split at hb <;> simp at hb
        rw [← hb]; simp
  have key : 0 < s'.nilConns := by
    refine run_induction (P := fun _ s => 0 < s.nilConns) h0 ?_ h
    intro es e s s' _ ih hs
    unfold step at hs
    split at hs
    · simp at hs
    cases e <;> simp only at hs <;> repeat' (split at hs)
    all_goals first
      | (simp at hs; done)
      | (simp only [Option.some.injEq] at hs; subst hs; first | exact ih | (simp only; omega))
  by_cases hc : s'.crashed = true
  · exact Or.inl hc
  · exact Or.inr ⟨{ s' with crashed := true }, by simp [step, hc, key], rfl⟩

example : ∃ s, run .lfEnded 0 init [.tau, .acceptErr, .tau] = some s ∧ s.errs = 1 := ⟨_, rfl, rfl⟩

/-- The errors a history reports: failed calls of `Accept`, and of `Read` (other than the end of file). -/
def Spec.failures (es : List Event) : Nat :=
  (es.filter fun e => match e with | .acceptErr => true | .read _ r => r.err = .other | _ => false).length

/-- The receives on the error channel. -/
def Spec.errorsRead (es : List Event) : Nat := (es.filter fun e => match e with | .recvErr => true | _ => false).length

/-- `runQueue` is about to send an error. -/
def atErrSend : PC → Nat
  | .errSend => 1
  | _ => 0

/-- Errors that are about to be sent. -/
def errWaiting (s : State) : Nat := atErrSend s.pc + (s.conns.filter fun c => c.errPending).length

theorem filter_set_length (l : List Conn) (i : Nat) (c c' : Conn) (h : l[i]? = some c) :
    ((l.set i c').filter fun c => c.errPending).length + (if c.errPending then 1 else 0) =
      (l.filter fun c => c.errPending).length + (if c'.errPending then 1 else 0) := by
  induction l generalizing i with
  | nil => simp at h
  | cons x r ih =>
    cases i with
    | zero =>
      simp only [List.getElem?_cons_zero, Option.some.injEq] at h
      subst h
      simp only [List.set_cons_zero, List.filter_cons]
      cases x.errPending <;> cases c'.errPending <;> simp
    | succ i =>
      simp only [List.getElem?_cons_succ] at h
      have := ih i h
      simp only [List.set_cons_succ, List.filter_cons]
      cases x.errPending <;> simp <;> omega

/-- C46 (partial): every error of `Accept` and of `Read` is put on the error channel exactly once: the errors read, in
the channel, and about to be sent are as many as the failures. Missing: that the receiver keeps working, see
`C46_accept_error_violated`. -/
theorem C46_reported_partial (t : Transport) (lenQueue : Nat) (es : List Event) (s : State) (h : run t lenQueue init es = some s)
    (hc : s.crashed = false) : errorsRead es + s.errs + errWaiting s = failures es ∧ s.errs ≤ 10 := by
  refine run_induction (P := fun es s => s.crashed = false → errorsRead es + s.errs + errWaiting s = failures es ∧ s.errs ≤ 10)
    (fun _ => ⟨by simp [errorsRead, failures, errWaiting, atErrSend, init], by simp [init]⟩) ?_ h hc
  intro es e s s' _ ih hs hc
  obtain ⟨ih, ihb⟩ := ih (step_not_crashed hs)
  have e1 : errorsRead (es ++ [e]) = errorsRead es + errorsRead [e] := by simp [errorsRead]
  have e2 : failures (es ++ [e]) = failures es + failures [e] := by simp [failures]
  rw [e1, e2]
  have hnc := step_not_crashed hs
  have base : ∀ s' : State, s'.errs = s.errs → s'.pc = s.pc → s'.conns = s.conns → errWaiting s' = errWaiting s := by
    intro s' h1 h2 h3; simp [errWaiting, h2, h3]
  unfold step at hs
  rw [if_neg (by simp [hnc])] at hs
  cases e with
  | tau =>
    have : errorsRead [Event.tau] = 0 ∧ failures [Event.tau] = 0 := ⟨rfl, rfl⟩
    simp only at hs
    split at hs
    · rename_i hpc
      simp only [Option.some.injEq] at hs; subst hs
      refine ⟨?_, ihb⟩
      have : errWaiting { s with pc := if s.ended = true then PC.closePipe else PC.accept } = errWaiting s := by
        simp only [errWaiting, hpc]; by_cases hen : s.ended = true <;> simp [atErrSend, hen]
      rw [this]; simp only; omega
    · rename_i hpc
      split at hs
      · rename_i hlt
        simp only [Option.some.injEq] at hs; subst hs
        simp only [errCap] at hlt
        simp only [errWaiting, atErrSend, hpc, if_true] at ih
        simp only [errWaiting, atErrSend, reduceCtorEq, if_false]
        omega
      · simp at hs
    · rename_i hpc
      simp only [Option.some.injEq] at hs; subst hs
      simp only [errWaiting, atErrSend, hpc, reduceCtorEq, if_false] at ih ⊢
      omega
    · rename_i hpc
      simp only [Option.some.injEq] at hs; subst hs
      simp only [errWaiting, atErrSend, hpc, reduceCtorEq, if_false] at ih ⊢
      omega
    · simp at hs
  | acceptOk =>
    have : errorsRead [Event.acceptOk] = 0 ∧ failures [Event.acceptOk] = 0 := ⟨rfl, rfl⟩
    simp only at hs
    split at hs
    · rename_i hpc
      simp only [Option.some.injEq] at hs; subst hs
      simp only [errWaiting, atErrSend, hpc, reduceCtorEq, if_false] at ih
      simp only [errWaiting, atErrSend, reduceCtorEq, if_false, List.filter_append]
      simp [Conn.new]
      omega
    · simp at hs
  | acceptErr =>
    have : errorsRead [Event.acceptErr] = 0 ∧ failures [Event.acceptErr] = 1 := ⟨rfl, rfl⟩
    simp only at hs
    split at hs
    · rename_i hpc
      simp only [Option.some.injEq] at hs; subst hs
      simp only [errWaiting, atErrSend, hpc, reduceCtorEq, if_false] at ih
      simp only [errWaiting, atErrSend, if_true]
      omega
    · simp at hs
  | nilStart => simp only at hs; split at hs <;> simp at hs; subst hs; simp at hc
  | read i r =>
    have hr : errorsRead [Event.read i r] = 0 := rfl
    have hf : failures [Event.read i r] = if r.err = .other then 1 else 0 := by
      by_cases he : r.err = .other <;> simp [failures, he]
    simp only at hs
    split at hs
    · simp at hs
    rename_i c hic
    split at hs
    rotate_left
    · simp at hs
    rename_i hg
    split at hs
    · rename_i b tok hst
      simp only [Option.some.injEq] at hs; subst hs
      have := filter_set_length s.conns i c { c with tok := tok, pending := tok.out.drop c.tok.out.length,
                                                     errPending := decide (r.err = .other), running := b } hic
      simp only [Bool.eq_false_iff.mpr hg.2.2.1, Bool.false_eq_true, if_false, Nat.add_zero, decide_eq_true_eq] at this
      simp only [errWaiting] at ih
      simp only [State.setConn, errWaiting, hr, hf]
      omega
    · simp only [Option.some.injEq] at hs; subst hs; simp at hc
    · simp at hs
  | sendErr i =>
    have : errorsRead [Event.sendErr i] = 0 ∧ failures [Event.sendErr i] = 0 := ⟨rfl, rfl⟩
    simp only at hs
    split at hs
    · simp at hs
    rename_i c hic
    split at hs
    rotate_left
    · simp at hs
    rename_i hg
    simp only [Option.some.injEq] at hs; subst hs
    have h2 := filter_set_length s.conns i c { c with errPending := false } hic
    simp only [hg.1, if_true, Bool.false_eq_true, if_false, Nat.add_zero] at h2
    simp only [errCap] at hg
    simp only [errWaiting] at ih
    simp only [State.setConn, errWaiting]
    omega
  | sendMsg i =>
    have : errorsRead [Event.sendMsg i] = 0 ∧ failures [Event.sendMsg i] = 0 := ⟨rfl, rfl⟩
    simp only at hs
    split at hs
    · simp at hs
    rename_i c hic
    split at hs
    · simp at hs
    rename_i d l hp
    split at hs
    · simp at hs
    split at hs
    · simp only [Option.some.injEq] at hs; subst hs; simp at hc
    split at hs
    rotate_left
    · simp at hs
    simp only [Option.some.injEq] at hs; subst hs
    have h2 := filter_set_length s.conns i c { c with pending := l } hic
    simp only [Nat.add_right_cancel_iff] at h2
    simp only [errWaiting] at ih
    simp only [State.setConn, errWaiting]
    omega
  | close i =>
    have : errorsRead [Event.close i] = 0 ∧ failures [Event.close i] = 0 := ⟨rfl, rfl⟩
    simp only at hs
    split at hs
    · simp at hs
    rename_i c hic
    split at hs
    rotate_left
    · simp at hs
    simp only [Option.some.injEq] at hs; subst hs
    have h2 := filter_set_length s.conns i c { c with closed := true } hic
    simp only [Nat.add_right_cancel_iff] at h2
    simp only [errWaiting] at ih
    simp only [State.setConn, errWaiting]
    omega
  | recv =>
    have : errorsRead [Event.recv] = 0 ∧ failures [Event.recv] = 0 := ⟨rfl, rfl⟩
    simp only at hs
    split at hs
    · simp at hs
    · simp only [Option.some.injEq] at hs; subst hs
      simp only [errWaiting] at ih ⊢; omega
  | handoff i =>
    have : errorsRead [Event.handoff i] = 0 ∧ failures [Event.handoff i] = 0 := ⟨rfl, rfl⟩
    simp only at hs
    split at hs
    · simp at hs
    rename_i c hic
    split at hs
    · simp at hs
    rename_i d l hp
    split at hs
    · simp at hs
    simp only [Option.some.injEq] at hs; subst hs
    have h2 := filter_set_length s.conns i c { c with pending := l } hic
    simp only [Nat.add_right_cancel_iff] at h2
    simp only [errWaiting] at ih
    simp only [State.setConn, errWaiting]
    omega
  | recvClosed =>
    have : errorsRead [Event.recvClosed] = 0 ∧ failures [Event.recvClosed] = 0 := ⟨rfl, rfl⟩
    simp only at hs; split at hs <;> simp at hs; subst hs; omega
  | endCall =>
    have : errorsRead [Event.endCall] = 0 ∧ failures [Event.endCall] = 0 := ⟨rfl, rfl⟩
    simp only at hs
    split at hs
    · simp only [Option.some.injEq] at hs; subst hs; simp at hc
    · simp only [Option.some.injEq] at hs; subst hs
      simp only [errWaiting] at ih ⊢; omega
  | recvErr =>
    have : errorsRead [Event.recvErr] = 1 ∧ failures [Event.recvErr] = 0 := ⟨rfl, rfl⟩
    simp only at hs
    split at hs <;> simp at hs
    subst hs
    simp only [errWaiting] at ih ⊢
    omega

/-! ## C63 -/

/-- C63 is violated: when nobody reads the error channel, a connection that reports an error while the channel holds
ten of them is stuck for ever: nothing it decoded is delivered and it is not read any more. -/
theorem C63_unread_errors_violated (t : Transport) (lenQueue : Nat) (s : State) (herr : s.errs = 10) (i : Nat) (c : Conn)
    (hi : s.conns[i]? = some c) (hp : c.errPending = true) (es : List Event) (s' : State) (h : run t lenQueue s es = some s')
    (hno : ∀ e ∈ es, e ≠ .recvErr) : s'.errs = 10 ∧ s'.conns[i]? = some c := by
  refine run_induction (P := fun es s => (∀ e ∈ es, e ≠ .recvErr) → s.errs = 10 ∧ s.conns[i]? = some c) (fun _ => ⟨herr, hi⟩) ?_ h hno
  intro es e s s' _ ih hs hno
  obtain ⟨h1, h2⟩ := ih fun e he => hno e (by simp [he])
  have n1 := hno e (by simp)
  have hlt := (List.getElem?_eq_some_iff.mp h2).1
  have set_ok : ∀ (s1 : State) (j : Nat) (cj : Conn), j ≠ i → s1.conns = s.conns → (s1.setConn j cj).conns[i]? = some c := by
    intro s1 j cj hj hs1
    simp only [State.setConn, hs1]
    rw [List.getElem?_set_ne hj]; exact h2
  unfold step at hs
  split at hs
  · simp at hs
  cases e with
  | tau =>
    simp only at hs
    repeat' (split at hs)
    all_goals first
      | (simp at hs; done)
      | (rename_i hl; simp [h1, errCap] at hl; done)
      | (simp only [Option.some.injEq] at hs; subst hs; exact ⟨h1, h2⟩)
  | acceptOk =>
    simp only at hs; split at hs <;> simp at hs; subst hs
    refine ⟨h1, ?_⟩
    simp only
    rw [List.getElem?_append_left hlt]; exact h2
  | acceptErr => simp only at hs; split at hs <;> simp at hs; subst hs; exact ⟨h1, h2⟩
  | nilStart => simp only at hs; split at hs <;> simp at hs; subst hs; exact ⟨h1, h2⟩
  | read j r =>
    simp only at hs
    split at hs
    · simp at hs
    rename_i cj hj
    split at hs
    rotate_left
    · simp at hs
    rename_i hg
    have hji : j ≠ i := by
      rintro rfl
      rw [h2] at hj
      simp only [Option.some.injEq] at hj
      subst hj
      exact hg.2.2.1 hp
    split at hs
    · simp only [Option.some.injEq] at hs; subst hs; exact ⟨h1, set_ok s j _ hji rfl⟩
    · simp only [Option.some.injEq] at hs; subst hs; exact ⟨h1, h2⟩
    · simp at hs
  | sendErr j =>
    simp only at hs
    split at hs
    · simp at hs
    split at hs
    · rename_i hg; simp [h1, errCap] at hg
    · simp at hs
  | sendMsg j =>
    simp only at hs
    split at hs
    · simp at hs
    rename_i cj hj
    split at hs
    · simp at hs
    split at hs
    · simp at hs
    rename_i hnp
    have hji : j ≠ i := by
      rintro rfl
      rw [h2] at hj
      simp only [Option.some.injEq] at hj
      subst hj
      exact hnp hp
    split at hs
    · simp only [Option.some.injEq] at hs; subst hs; exact ⟨h1, h2⟩
    split at hs
    · simp only [Option.some.injEq] at hs; subst hs; exact ⟨h1, set_ok _ j _ hji rfl⟩
    · simp at hs
  | close j =>
    simp only at hs
    split at hs
    · simp at hs
    rename_i cj hj
    split at hs
    rotate_left
    · simp at hs
    rename_i hg
    have hji : j ≠ i := by
      rintro rfl
      rw [h2] at hj
      simp only [Option.some.injEq] at hj
      subst hj
      exact hg.2.2.1 hp
    simp only [Option.some.injEq] at hs; subst hs; exact ⟨h1, set_ok s j _ hji rfl⟩
  | recv =>
    simp only at hs
    split at hs
    · simp at hs
    · simp only [Option.some.injEq] at hs; subst hs; exact ⟨h1, h2⟩
  | handoff j =>
    simp only at hs
    split at hs
    · simp at hs
    rename_i cj hj
    split at hs
    · simp at hs
    split at hs
    · simp at hs
    rename_i hg
    have hji : j ≠ i := by
      rintro rfl
      rw [h2] at hj
      simp only [Option.some.injEq] at hj
      subst hj
      simp [hp] at hg
    simp only [Option.some.injEq] at hs; subst hs; exact ⟨h1, set_ok _ j _ hji rfl⟩
  | recvClosed => simp only at hs; split at hs <;> simp at hs; subst hs; exact ⟨h1, h2⟩
  | endCall => simp only at hs; split at hs <;> simp at hs <;> subst hs <;> exact ⟨h1, h2⟩
  | recvErr => exact absurd rfl n1

/-- C63 (partial): while fewer than 10 errors are unread, whoever has an error to report can report it, and goes on.
Missing: what happens with more, see above. -/
theorem C63_room_partial (t : Transport) (lenQueue : Nat) (s : State) (hc : s.crashed = false) (hlt : s.errs < 10) :
    (s.pc = .errSend → ∃ s', step t lenQueue s .tau = some s' ∧ s'.pc = .select ∧ s'.errs = s.errs + 1) ∧
    (∀ (i : Nat) (c : Conn), s.conns[i]? = some c → c.errPending = true →
      ∃ s' c', step t lenQueue s (.sendErr i) = some s' ∧ s'.errs = s.errs + 1 ∧ s'.conns[i]? = some c' ∧
        c'.errPending = false ∧ c'.pending = c.pending ∧ c'.running = c.running) := by
  constructor
  · intro hpc
    exact ⟨{ s with errs := s.errs + 1, nilConns := s.nilConns + 1, pc := .select }, by simp [step, hc, hpc, errCap, hlt], rfl, rfl⟩
  · intro i c hi he
    refine ⟨{ s with errs := s.errs + 1 }.setConn i { c with errPending := false }, { c with errPending := false },
      by simp [step, hc, hi, he, errCap, hlt], rfl, ?_, rfl, rfl, rfl⟩
    simp only [State.setConn]
    rw [List.getElem?_set_self (List.getElem?_eq_some_iff.mp hi).1]

/-- One connection whose reads fail fills the error channel (it does not stop reading, see C60). -/
theorem C63_one_connection_violated (t : Transport) (lenQueue : Nat) (n : Nat) (hn : n ≤ 10) :
    ∃ s c, run t lenQueue init ([.tau, .acceptOk] ++ (List.replicate n [Event.read 0 { data := [], err := .other }, .sendErr 0]).flatten) = some s ∧
      s.errs = n ∧ s.conns = [c] ∧ c.running = true ∧ c.pending = [] ∧ c.errPending = false ∧ s.crashed = false := by
  induction n with
  | zero => exact ⟨_, _, rfl, rfl, rfl, rfl, rfl, rfl, rfl⟩
  | succ n ih =>
    obtain ⟨s, c, h1, h2, h3, h4, h5, h6, h7⟩ := ih (by omega)
    have hf : Tok.Read.Fits { data := [], err := .other } c.tok := by simp [Tok.Read.Fits]
    have hstep : Tok.step t c.tok { data := [], err := .other } = .ret (true, { c.tok with arr := Tok.overwrite c.tok.arr (c.tok.off + c.tok.done) [], errs := c.tok.errs + 1 }) := rfl
    have hrep : List.replicate (n + 1) [Event.read 0 { data := [], err := .other }, .sendErr 0] =
        List.replicate n [Event.read 0 { data := [], err := .other }, .sendErr 0] ++ [[Event.read 0 { data := [], err := .other }, .sendErr 0]] :=
      List.replicate_succ'
    have hlt : s.errs < errCap := by simp only [errCap]; omega
    rw [hrep, List.flatten_append, ← List.append_assoc, run_append, h1]
    let T : Tok.State := { c.tok with arr := Tok.overwrite c.tok.arr (c.tok.off + c.tok.done) [], errs := c.tok.errs + 1 }
    refine ⟨{ s with errs := s.errs + 1, conns := [{ c with tok := T, pending := T.out.drop c.tok.out.length, errPending := false, running := true }] },
      _, ?_, ?_, rfl, rfl, ?_, rfl, h7⟩
    · simp only [Option.bind_some, List.flatten_cons, List.flatten_nil, List.append_nil, run]
      simp [step, h7, h3, h4, h5, h6, hf, hstep, State.setConn, hlt, T]
    · simp [h2]
    · simp [T]

/-- A state as in `C63_unread_errors_violated`: an eleventh error. -/
example (t : Transport) (lenQueue : Nat) : ∃ es s c, run t lenQueue init es = some s ∧ s.errs = 10 ∧ s.conns[0]? = some c ∧ c.errPending = true := by
  obtain ⟨s, c, h1, h2, h3, h4, h5, h6, h7⟩ := C63_one_connection_violated t lenQueue 10 (by omega)
  have hf : Tok.Read.Fits { data := [], err := .other } c.tok := by simp [Tok.Read.Fits]
  let T : Tok.State := { c.tok with arr := Tok.overwrite c.tok.arr (c.tok.off + c.tok.done) [], errs := c.tok.errs + 1 }
  have hstep : Tok.step t c.tok { data := [], err := .other } = .ret (true, T) := rfl
  refine ⟨([.tau, .acceptOk] ++ (List.replicate 10 [Event.read 0 { data := [], err := .other }, .sendErr 0]).flatten) ++ [.read 0 { data := [], err := .other }],
    { s with conns := [{ c with tok := T, pending := T.out.drop c.tok.out.length, errPending := true, running := true }] }, _, ?_, h2, rfl, rfl⟩
  rw [run_append, h1]
  simp only [Option.bind_some, run]
  simp [step, h7, h3, h4, h5, h6, hf, hstep, State.setConn]

end Syslog5424
