import Verif.Lemmas.SimBack
import Verif.Props.LinesCrash
/-!
# C93: a receiver that sends each message before it decodes the next

The theorems about receivers (C44 to C46, C53, C63, C72 to C74, C79, C83, C84) are about `Model/Receiver.lean`, where
everything that one `Read` brought is decoded at once. Here they are carried over to `Model/Stepwise.lean`, where the
goroutine of a connection calls `Parse`, sends the pair, and only then calls `Parse` again, as in the code.
-/
namespace Syslog5424
open Spec Recv

theorem marked_got {t : Transport} {n : Nat} {es : List SEvent} {f : SState} {es' : List Recv.Event} {s : Recv.State} {P G : Marked}
    (h : Sim t n es f es' s P G) (i : Nat) (hi : ∀ c, f.conns[i]? = some c → ¬ Doomed t c) :
    ofConn i s.got = ofConn i f.got ∧ ofConn i s.pipeline = ofConn i f.pipeline := by
  have hm : ∀ x ∈ P ++ G, x.1 = false → x.2.1 ≠ i := by
    rintro x hx hx1 rfl
    obtain ⟨c, hc, hd⟩ := h.marks x hx hx1
    exact hi c hc hd
  rw [h.got.1, h.got.2, h.pipe.1, h.pipe.2]
  exact ⟨ofConn_marks fun x hx => hm x (by simp [hx]), ofConn_marks fun x hx => hm x (by simp [hx])⟩

/-- C93: every history of a receiver that decodes message by message is a history of the receiver that decodes at once what was
read: it crashes iff that one does, the two have done the same with the listener, the pipeline, `End` and the error channel, and
`Receive` has returned the same from every connection, in the same order; only a connection over which bytes were read that crash
the program may have given more before. -/
theorem C93_explained (t : Transport) (lenQueue : Nat) (es : List SEvent) (f : SState) (h : srun t lenQueue sinit es = some f) :
    ∃ es' s, run t lenQueue init es' = some s ∧ s.crashed = f.crashed ∧ s.pc = f.pc ∧ s.pipelineClosed = f.pipelineClosed ∧
      s.ended = f.ended ∧ s.errs = f.errs ∧ s.conns.length = f.conns.length ∧ s.got.Sublist f.got ∧
      ∀ i : Nat, (∀ c, f.conns[i]? = some c → ¬ Doomed t c) →
        ofConn i s.got = ofConn i f.got ∧ ofConn i s.pipeline = ofConn i f.pipeline ∧ readsOf i es' = sreadsOf i es := by
  have sub : ∀ {es : List SEvent} {f : SState} {es' : List Recv.Event} {s : Recv.State} {P G : Marked}, Sim t lenQueue es f es' s P G →
      s.got.Sublist f.got := by
    intro es f es' s P G hS
    rw [hS.got.1, hS.got.2]
    exact List.filter_sublist.map _
  rcases sim_run h with ⟨_, es', s, P, G, hS⟩ | ⟨es0, e, f0, es', s, P, G, rfl, hS, rfl, h1, e', s', h2, rfl, h3⟩
  · refine ⟨es', s, hS.run, by rw [hS.alive.1, hS.alive.2], hS.pc.symm, hS.closed.symm, hS.ended.symm, hS.errs.symm, hS.len.symm, sub hS, fun i hi => ?_⟩
    obtain ⟨a, b⟩ := marked_got hS i hi
    exact ⟨a, b, hS.reads i hi⟩
  · refine ⟨es' ++ [e'], { s with crashed := true }, by rw [run_append, hS.run]; exact run_one h2, rfl, hS.pc.symm, hS.closed.symm, hS.ended.symm, hS.errs.symm, hS.len.symm,
      sub (f := f0) (s := s) hS, fun i hi => ?_⟩
    obtain ⟨a, b⟩ := marked_got hS i hi
    exact ⟨a, b, by rw [readsOf_append, sreadsOf_append, h1, h3 i hi, hS.reads i hi]⟩

/-- C93: when no bytes were read that crash the program, the two have given exactly the same, in the same order. -/
theorem C93_exact (t : Transport) (lenQueue : Nat) (es : List SEvent) (f : SState) (h : srun t lenQueue sinit es = some f)
    (hd : ∀ (i : Nat) (c : SConn), f.conns[i]? = some c → ¬ Doomed t c) :
    ∃ es' s, run t lenQueue init es' = some s ∧ s.crashed = f.crashed ∧ s.got = f.got ∧ s.pipeline = f.pipeline ∧ s.pc = f.pc ∧
      s.pipelineClosed = f.pipelineClosed ∧ s.ended = f.ended ∧ s.errs = f.errs ∧ ∀ i, readsOf i es' = sreadsOf i es := by
  have same : ∀ {es : List SEvent} {f : SState} {es' : List Recv.Event} {s : Recv.State} {P G : Marked}, Sim t lenQueue es f es' s P G →
      (∀ (i : Nat) (c : SConn), f.conns[i]? = some c → ¬ Doomed t c) → s.got = f.got ∧ s.pipeline = f.pipeline := by
    intro es f es' s P G hS hd
    have hm : ∀ x ∈ P ++ G, x.1 = true := by
      intro x hx
      cases hx1 : x.1 with
      | true => rfl
      | false => obtain ⟨c, hc, hd'⟩ := hS.marks x hx hx1; exact absurd hd' (hd _ c hc)
    rw [hS.got.1, hS.got.2, hS.pipe.1, hS.pipe.2, List.filter_eq_self.2 fun x hx => hm x (by simp [hx]),
      List.filter_eq_self.2 fun x hx => hm x (by simp [hx])]
    exact ⟨rfl, rfl⟩
  rcases sim_run h with ⟨_, es', s, P, G, hS⟩ | ⟨es0, e, f0, es', s, P, G, rfl, hS, rfl, h1, e', s', h2, rfl, h3⟩
  · obtain ⟨a, b⟩ := same hS hd
    exact ⟨es', s, hS.run, by rw [hS.alive.1, hS.alive.2], a, b, hS.pc.symm, hS.closed.symm, hS.ended.symm, hS.errs.symm, fun i => hS.reads i (hd i)⟩
  · obtain ⟨a, b⟩ := same hS hd
    exact ⟨es' ++ [e'], { s with crashed := true }, by rw [run_append, hS.run]; exact run_one h2, rfl, a, b, hS.pc.symm, hS.closed.symm, hS.ended.symm, hS.errs.symm,
      fun i => by rw [readsOf_append, sreadsOf_append, h1, h3 i (hd i), hS.reads i (hd i)]⟩

/-- C93, the other way round: every history of the receiver that decodes at once what was read is one of the receiver that decodes
message by message, with the same reads and the same returned by `Receive`; and if it crashes, so can the other one, after having
returned at least as much. -/
theorem C93_realised (t : Transport) (lenQueue : Nat) (es : List Recv.Event) (s : Recv.State) (h : run t lenQueue init es = some s) :
    (s.crashed = false → ∃ es' f, srun t lenQueue sinit es' = some f ∧ f.crashed = false ∧ f.got = s.got ∧ f.pipeline = s.pipeline ∧
      f.pc = s.pc ∧ f.pipelineClosed = s.pipelineClosed ∧ f.ended = s.ended ∧ f.errs = s.errs ∧ ∀ i, sreadsOf i es' = readsOf i es) ∧
    (s.crashed = true → ∃ es' f, srun t lenQueue sinit es' = some f ∧ f.crashed = true ∧ s.got <+: f.got) := by
  rcases back_run h with ⟨h1, es', f, hB⟩ | ⟨h1, h2⟩
  · exact ⟨fun _ => ⟨es', f, hB.srun, hB.alive.1, hB.got, hB.pipe, hB.pc, hB.closed, hB.ended, hB.errs, hB.reads⟩,
      fun hx => by rw [h1] at hx; cases hx⟩
  · exact ⟨fun hx => (by rw [h1] at hx; cases hx), fun _ => h2⟩

/-- C93 (C44 for this receiver): as long as the program runs, what `Receive` has returned from a connection and what waits in the
queue is, in order, the beginning of what the reads on the connection decode to (all of it when its goroutine is back at `Read`); or
the reads on it crash the program. -/
theorem C93_order (t : Transport) (lenQueue : Nat) (es : List SEvent) (f : SState) (h : srun t lenQueue sinit es = some f)
    (hc : f.crashed = false) (i : Nat) (c : SConn) (hi : f.conns[i]? = some c) :
    (∃ b tok rest, Tok.Run t Tok.init (sreadsOf i es) (.ret (b, tok)) ∧ ofConn i f.got ++ ofConn i f.pipeline ++ rest = tok.out ∧
      (c.work = none → rest = [])) ∨
    Tok.Run t Tok.init (sreadsOf i es) .panic := by
  rcases sim_run h with ⟨_, es', s, P, G, hS⟩ | ⟨_, _, _, _, _, _, _, _, _, rfl, _⟩
  · obtain ⟨k, hk, hrc⟩ := hS.get hi
    by_cases hd : Doomed t c
    · obtain ⟨_, _, _, _, _, _, _, _, hr⟩ := hS.doom i c k hi hk hd
      exact Or.inr hr
    · have hnd : ∀ c, f.conns[i]? = some c → ¬ Doomed t c := by
        intro x hx; rw [hi] at hx; cases hx; exact hd
      obtain ⟨a, b⟩ := marked_got hS i hnd
      obtain ⟨g1, _, g3⟩ := (inv_run hS.run hS.alive.2).conn i k hk
      rw [hS.reads i hnd] at g1
      rw [a, b] at g3
      refine Or.inl ⟨_, _, _, g1, g3, fun hw => ?_⟩
      have := hrc.2.2
      rw [hw] at this
      exact this.2.1
  · cases hc

/-- C93: a connection is doomed only if the reads on it crash a program that decodes at once what it read. -/
theorem C93_doomed (t : Transport) (lenQueue : Nat) (es : List SEvent) (f : SState) (h : srun t lenQueue sinit es = some f)
    (hc : f.crashed = false) (i : Nat) (c : SConn) (hi : f.conns[i]? = some c) (hd : Doomed t c) :
    Tok.Run t Tok.init (sreadsOf i es) .panic := by
  rcases sim_run h with ⟨_, es', s, P, G, hS⟩ | ⟨_, _, _, _, _, _, _, _, _, rfl, _⟩
  · obtain ⟨k, hk, _⟩ := hS.get hi
    obtain ⟨_, _, _, _, _, _, _, _, hr⟩ := hS.doom i c k hi hk hd
    exact hr
  · cases hc

/-- C93: and then it can crash this one, whatever else happened before. -/
theorem C93_doomed_crash (t : Transport) (lenQueue : Nat) (es : List SEvent) (f : SState) (h : srun t lenQueue sinit es = some f)
    (hc : f.crashed = false) (i : Nat) (c : SConn) (hi : f.conns[i]? = some c) (hd : Doomed t c) (he : c.errPending = false)
    (hs : ∀ w, c.work = some w → w.sending = none) :
    ∃ es' f', srun t lenQueue sinit (es ++ es') = some f' ∧ f'.crashed = true ∧ f.got <+: f'.got := by
  rcases sim_run h with ⟨_, es', s, P, G, hS⟩ | ⟨_, _, _, _, _, _, _, _, _, rfl, _⟩
  · obtain ⟨k, hk, hrc⟩ := hS.get hi
    obtain ⟨w, hw, _, hp⟩ := hd
    have hcap : w.data.cap < 2 ^ 63 := by
      have := hrc.2.2
      rw [hw] at this
      exact this.2.1
    obtain ⟨es2, f', h1, h2, h3⟩ := doom_crash (n := lenQueue) hp f i c w hcap hc hi hw rfl rfl (hs w hw) he
    exact ⟨es2, f', srun_trans h h1, h2, h3⟩
  · cases hc

/-- Two messages arrive byte by byte and are received. -/
example (lenQueue : Nat) : ∃ es f, srun .rfc5425 lenQueue sinit es = some f ∧ f.crashed = false ∧
    Each (fun p d => Conveys p d.msg d.err) samplePayloads (ofConn 0 f.got) := by
  have hlen : ∀ p ∈ samplePayloads, p.length < 2 ^ 62 ∧ 20 ≤ (Transport.rfc5425.encode p).length := by decide +kernel
  obtain ⟨s, h⟩ := C42_progress_partial samplePayloads (by decide +kernel) _ (Nat.le_refl _)
  rw [List.take_length] at h
  have hrec : ∀ l : Bytes, arrived (l.map fun x => ({ data := [x] } : Tok.Read)) = l := by
    intro l; induction l with
    | nil => rfl
    | cons x l ih => simp only [arrived, List.map_cons, List.flatMap_cons] at ih ⊢; rw [ih]; rfl
  obtain ⟨b, s', h1, _, h2⟩ := C40_all_delivered_partial samplePayloads hlen _ _ h (hrec _)
  simp only [Out.ret.injEq, Prod.mk.injEq] at h1
  obtain ⟨_, rfl⟩ := h1
  obtain ⟨es, s1, g1, g2, _, g4⟩ := C44_realised .rfc5425 lenQueue _ _ h
  obtain ⟨es', f, k1, k2, k3, _⟩ := (C93_realised .rfc5425 lenQueue es s1 g1).1 g2
  exact ⟨es', f, k1, k2, by rw [k3, g4]; exact h2⟩

/-- A doomed connection: a read that ends behind the `-` of the structured data. -/
example (lenQueue : Nat) : ∃ es f c, srun .lfEnded lenQueue sinit es = some f ∧ f.crashed = false ∧ f.conns[0]? = some c ∧ Doomed .lfEnded c ∧
    c.errPending = false := by
  let r : Tok.Read := { data := headerText [b!"<1>1", b!"-", b!"-", b!"-", b!"-", b!"-"] ++ b!"-" }
  have hpan := C41_cut_after_dash_violated .lfEnded (Or.inl rfl) [b!"<1>1", b!"-", b!"-", b!"-", b!"-", b!"-"] (by decide +kernel) (by decide +kernel)
    (by decide +kernel)
  have hstep : Tok.step .lfEnded Tok.init r = .panic := by
    cases hpan with
    | cons _ _ h2 => cases h2
    | last _ h1 _ => exact h1
  have hfit : r.Fits Tok.init := fits_init (by decide +kernel)
  obtain ⟨c', hl, hcase⟩ := RC.load (t := .lfEnded) (c := SConn.new) (k := Conn.new) (r := r) ⟨rfl, rfl, rfl, rfl, rfl⟩ rfl rfl hfit Tok.mem_init
  refine ⟨[.std .tau, .std .acceptOk, .std (.read 0 r)], { sinit with conns := [c'] }, c', ?_, rfl, rfl, ?_, ?_⟩
  · have h1 : sstep .lfEnded lenQueue sinit (.std .tau) = some { sinit with pc := .accept } := rfl
    have h2 : sstep .lfEnded lenQueue { sinit with pc := .accept } (.std .acceptOk) = some { sinit with conns := [SConn.new] } := rfl
    have h3 : sstep .lfEnded lenQueue { sinit with conns := [SConn.new] } (.std (.read 0 r)) = some { sinit with conns := [c'] } := by
      have hg : ({ sinit with conns := [SConn.new] } : SState).conns[0]? = some SConn.new := rfl
      unfold sstep
      rw [if_neg (show ¬ ({ sinit with conns := [SConn.new] } : SState).crashed = true by simp [sinit])]
      simp only [hg]
      rw [if_pos ⟨rfl, rfl, (by simp [SConn.new]), hfit⟩, hl]
      simp [SState.setConn]
    rw [srun, h1]
    simp only [Option.bind_some]
    rw [srun, h2]
    simp only [Option.bind_some]
    rw [srun, h3]
    rfl
  · rcases hcase with ⟨_, _, _, h1, _⟩ | ⟨h1, _⟩
    · rw [show Conn.new.tok = Tok.init from rfl, hstep] at h1; cases h1
    · exact h1
  · rcases hcase with ⟨_, _, _, h1, _⟩ | ⟨_, _, _, _, _, _, _, _, _, _, _, h2⟩
    · rw [show Conn.new.tok = Tok.init from rfl, hstep] at h1; cases h1
    · exact h2.1

end Syslog5424
