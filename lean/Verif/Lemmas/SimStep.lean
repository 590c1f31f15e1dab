import Verif.Lemmas.Simulation
/-! # Lemmas: one event of a receiver that decodes message by message -/
namespace Syslog5424.Recv
open Spec Tok

abbrev Marked := List (Bool × Nat × Tok.Delivered)

/-- What one event does: the simulation goes on, or both programs crash. -/
def SimNext (t : Transport) (n : Nat) (es : List SEvent) (e : SEvent) (f f' : SState) (es' : List Event) (s : State) : Prop :=
  (∃ es2 s' P' G', Sim t n (es ++ [e]) f' (es' ++ es2) s' P' G') ∨
  (f' = { f with crashed := true } ∧ (∀ j, sreadsOf j [e] = []) ∧
    ∃ e' s', step t n s e' = some s' ∧ s' = { s with crashed := true } ∧
      ∀ j : Nat, (∀ c, f.conns[j]? = some c → ¬ Doomed t c) → readsOf j [e'] = [])

theorem set_same {α : Type} {l : List α} {i : Nat} {x : α} (h : l[i]? = some x) : l.set i x = l := by
  apply List.ext_getElem?
  intro j
  rw [List.getElem?_set]
  split
  · rename_i hj
    subst hj
    rw [if_pos (List.getElem?_eq_some_iff.1 h).1, h]
  · rfl

theorem tok_run_panic {t : Transport} {s s' : Tok.State} {rs : List Tok.Read} {r : Tok.Read}
    (h : Tok.Run t s rs (.ret (true, s'))) (hf : r.Fits s') (hs : Tok.step t s' r = .panic) : Tok.Run t s (rs ++ [r]) .panic := by
  generalize ho : (Out.ret (true, s') : Out (Bool × Tok.State)) = o at h
  induction h with
  | nil =>
    simp only [Out.ret.injEq, Prod.mk.injEq, true_and] at ho
    subst ho
    exact .last hf hs (by simp)
  | cons hf1 hs1 _ ih => exact .cons hf1 hs1 (ih ho)
  | last _ _ hn => exact absurd ho.symm (hn _)

theorem run_one {t : Transport} {n : Nat} {s s' : State} {e : Event} (h : step t n s e = some s') : run t n s [e] = some s' := by
  simp [run, h]

/-- The counterpart of a doomed connection can crash. -/
theorem Sim.crash {t : Transport} {n : Nat} {es : List SEvent} {f : SState} {es' : List Event} {s : State} {P G : Marked}
    (h : Sim t n es f es' s P G) {i : Nat} {c : SConn} (hc : f.conns[i]? = some c) (hd : Doomed t c) (he : c.errPending = false) :
    ∃ e' s', step t n s e' = some s' ∧ s' = { s with crashed := true } ∧
      ∀ j : Nat, (∀ c, f.conns[j]? = some c → ¬ Doomed t c) → readsOf j [e'] = [] := by
  obtain ⟨k, hk, hrc⟩ := h.get hc
  obtain ⟨pre, r, r', _, _, _, hf, hp, _⟩ := h.doom i c k hc hk hd
  obtain ⟨h1, _, h3⟩ := hrc
  cases hw : c.work with
  | none => exact absurd hd (doomed_none hw)
  | some w =>
    rw [hw] at h3
    obtain ⟨_, hcap, h5⟩ := h3
    have := (doomed_iff hw hcap).1 hd
    rcases h5 with ⟨d', ds, h5, _⟩ | ⟨_, h6, h7, _⟩
    · rw [this] at h5; cases h5
    · refine ⟨.read i r, _, ?_, rfl, fun j hj => ?_⟩
      case refine_2 =>
        by_cases hij : i = j
        · subst hij; exact absurd hd (hj c hc)
        · simp [readsOf, hij]
      unfold step
      rw [if_neg (by rw [h.alive.2]; simp)]
      simp only [hk]
      rw [if_pos ⟨h7, by rw [h6]; rfl, by rw [← h1, he]; simp, hf⟩, hp]

/-- A connection is accepted. -/
theorem Sim.accept {t : Transport} {n : Nat} {es : List SEvent} {f : SState} {es' : List Event} {s : State} {P G : Marked}
    (h : Sim t n es f es' s P G) (hpc : f.pc = .accept) :
    Sim t n (es ++ [.std .acceptOk]) { f with conns := f.conns ++ [SConn.new], pc := .select } (es' ++ [.acceptOk])
      { s with conns := s.conns ++ [Conn.new], pc := .select } P G := by
  have hst : step t n s .acceptOk = some { s with conns := s.conns ++ [Conn.new], pc := .select } := by
    unfold step
    rw [if_neg (by rw [h.alive.2]; simp)]
    simp only
    rw [if_pos (by rw [← h.pc, hpc])]
  have gf : ∀ (j : Nat) (c : SConn), (f.conns ++ [SConn.new])[j]? = some c → f.conns[j]? = some c ∨ (j = f.conns.length ∧ c = SConn.new) := by
    intro j c hj
    rcases Nat.lt_or_ge j f.conns.length with hl | hl
    · rw [List.getElem?_append_left hl] at hj; exact Or.inl hj
    · rw [List.getElem?_append_right hl] at hj
      cases hx : j - f.conns.length with
      | zero => rw [hx] at hj; cases hj; exact Or.inr ⟨by omega, rfl⟩
      | succ m => rw [hx] at hj; simp at hj
  have gf2 : ∀ (j : Nat) (c : SConn), f.conns[j]? = some c → (f.conns ++ [SConn.new])[j]? = some c := by
    intro j c hj
    rw [List.getElem?_append_left (List.getElem?_eq_some_iff.1 hj).1]; exact hj
  have gs : ∀ (j : Nat) (k : Conn), (s.conns ++ [Conn.new])[j]? = some k → s.conns[j]? = some k ∨ (j = s.conns.length ∧ k = Conn.new) := by
    intro j c hj
    rcases Nat.lt_or_ge j s.conns.length with hl | hl
    · rw [List.getElem?_append_left hl] at hj; exact Or.inl hj
    · rw [List.getElem?_append_right hl] at hj
      cases hx : j - s.conns.length with
      | zero => rw [hx] at hj; cases hj; exact Or.inr ⟨by omega, rfl⟩
      | succ m => rw [hx] at hj; simp at hj
  exact {
    run := by rw [run_append, h.run]; exact run_one hst
    alive := h.alive
    pc := rfl
    closed := h.closed
    errs := h.errs
    ended := h.ended
    nils := h.nils
    len := by simp [h.len]
    conn := by
      intro i c k hc hk
      rcases gf i c hc with hc | ⟨hi, rfl⟩
      · rcases gs i k hk with hk | ⟨hi, _⟩
        · exact h.conn i c k hc hk
        · have := (List.getElem?_eq_some_iff.1 hc).1
          rw [h.len] at this; omega
      · rcases gs i k hk with hk | ⟨_, rfl⟩
        · have := (List.getElem?_eq_some_iff.1 hk).1
          rw [← h.len] at this; omega
        · exact ⟨rfl, rfl, rfl, rfl, rfl⟩
    pipe := h.pipe
    got := h.got
    marks := by
      intro x hx hx1
      obtain ⟨c, hc, hd⟩ := h.marks x hx hx1
      exact ⟨c, gf2 _ _ hc, hd⟩
    reads := by
      intro i hi
      rw [sreadsOf_append, readsOf_append]
      show readsOf i es' ++ [] = sreadsOf i es ++ []
      rw [List.append_nil, List.append_nil]
      exact h.reads i fun c hc => hi c (gf2 _ _ hc)
    doom := by
      intro i c k hc hk hd
      rw [sreadsOf_append, readsOf_append]
      rw [show sreadsOf i [.std .acceptOk] = [] from rfl, show readsOf i [.acceptOk] = [] from rfl, List.append_nil, List.append_nil]
      rcases gf i c hc with hc | ⟨hi, rfl⟩
      · rcases gs i k hk with hk | ⟨hi, _⟩
        · exact h.doom i c k hc hk hd
        · have := (List.getElem?_eq_some_iff.1 hc).1
          rw [h.len] at this; omega
      · exact absurd hd (doomed_none rfl) }

/-- A read. -/
theorem Sim.read {t : Transport} {n : Nat} {es : List SEvent} {f : SState} {es' : List Event} {s : State} {P G : Marked}
    (h : Sim t n es f es' s P G) {i : Nat} {c c' : SConn} {r : Tok.Read} (hc : f.conns[i]? = some c) (hrun : c.running = true)
    (hw : c.work = none) (he : c.errPending = false) (hf : r.Fits c.tok) (hl : c.load r = .ret c') :
    ∃ e' s', Sim t n (es ++ [.std (.read i r)]) (f.setConn i c') (es' ++ [e']) s' P G := by
  obtain ⟨k, hk, hrc⟩ := h.get hc
  have hinv := (inv_run h.run h.alive.2).conn i k hk
  have hrc0 := hrc
  obtain ⟨hr1, hr2, hr3⟩ := hrc
  rw [hw] at hr3
  obtain ⟨htok, hpend, hkr⟩ := hr3
  have hkf : r.Fits k.tok := by rw [htok]; exact hf
  obtain ⟨c1, hl1, hcase⟩ := RC.load hrc0 hw hrun hf (by rw [← htok]; exact hinv.mem)
  rw [hl] at hl1
  cases hl1
  have hnd : ∀ x, f.conns[i]? = some x → ¬ Doomed t x := by
    intro x hx; rw [hc] at hx; cases hx; exact doomed_none hw
  have hreads := h.reads i hnd
  have hil := (List.getElem?_eq_some_iff.1 hc).1
  have hil' := (List.getElem?_eq_some_iff.1 hk).1
  -- the coarse event, its data, and the new connection
  have key : ∃ (r1 : Tok.Read) (k' : Conn), step t n s (.read i r1) = some (s.setConn i k') ∧ RC t c' k' ∧
      (¬ Doomed t c' → r1 = r) ∧
      (Doomed t c' → r1.data = [] ∧ r.Fits k'.tok ∧ Tok.step t k'.tok r = .panic ∧ Tok.step t k.tok r = .panic) := by
    rcases hcase with ⟨hd, goOn, tok, hst, hrc'⟩ | ⟨hd, r', tok, h0, h1, h2, hpan, h3, h4, h5, h6, hrc'⟩
    · refine ⟨r, _, ?_, hrc', fun _ => rfl, fun hd' => absurd hd' hd⟩
      unfold Recv.step
      rw [if_neg (by rw [h.alive.2]; simp)]
      simp only [hk]
      rw [if_pos ⟨by rw [hkr]; exact hrun, by rw [hpend]; rfl, by rw [← hr1, he]; simp, hkf⟩, hst]
    · refine ⟨r', _, ?_, hrc', fun hd' => absurd hd hd', fun _ => ⟨h0, h4, h5, hpan⟩⟩
      unfold Recv.step
      rw [if_neg (by rw [h.alive.2]; simp)]
      simp only [hk]
      rw [if_pos ⟨by rw [hkr]; exact hrun, by rw [hpend]; rfl, by rw [← hr1, he]; simp, h1⟩, h3]
      simp only [h6, Option.some.injEq]
      congr 1
      simp [h2]
  obtain ⟨r1, k', hst, hrc', hk1, hk2⟩ := key
  refine ⟨.read i r1, s.setConn i k', ?_⟩
  have gf : ∀ j : Nat, (f.setConn i c').conns[j]? = if i = j then some c' else f.conns[j]? := by
    intro j; unfold SState.setConn; simp only; rw [List.getElem?_set]
    split
    · rename_i hj; subst hj; simp
    · rfl
  have gs : ∀ j : Nat, (s.setConn i k').conns[j]? = if i = j then some k' else s.conns[j]? := by
    intro j; unfold State.setConn; simp only; rw [List.getElem?_set]
    split
    · rename_i hj; subst hj; simp
    · rfl
  have e1 : ∀ j, sreadsOf j [.std (.read i r)] = if i = j then [r] else [] := by
    intro j; by_cases hj : i = j <;> simp [sreadsOf, hj]
  have e2 : ∀ j, readsOf j [.read i r1] = if i = j then [r1] else [] := by
    intro j; by_cases hj : i = j <;> simp [readsOf, hj]
  exact {
    run := by rw [run_append, h.run]; exact run_one hst
    alive := h.alive
    pc := h.pc
    closed := h.closed
    errs := h.errs
    ended := h.ended
    nils := h.nils
    len := by simp [SState.setConn, State.setConn, h.len]
    conn := by
      intro j a b ha hb
      rw [gf] at ha; rw [gs] at hb
      by_cases hj : i = j
      · rw [if_pos hj] at ha hb
        cases ha; cases hb; exact hrc'
      · rw [if_neg hj] at ha hb
        exact h.conn j a b ha hb
    pipe := h.pipe
    got := h.got
    marks := by
      intro x hx hx1
      obtain ⟨a, ha, hd⟩ := h.marks x hx hx1
      rw [gf]
      by_cases hj : i = x.2.1
      · rw [← hj] at ha; exact absurd hd (hnd a ha)
      · rw [if_neg hj]; exact ⟨a, ha, hd⟩
    reads := by
      intro j hj
      rw [sreadsOf_append, readsOf_append, e1, e2]
      rw [gf] at hj
      by_cases hij : i = j
      · rw [if_pos hij] at hj
        subst hij
        rw [if_pos rfl, if_pos rfl, hreads, hk1 (hj c' rfl)]
      · rw [if_neg hij] at hj
        rw [if_neg hij, if_neg hij, List.append_nil, List.append_nil]
        exact h.reads j hj
    doom := by
      intro j a b ha hb hda
      rw [sreadsOf_append, readsOf_append, e1, e2]
      rw [gf] at ha; rw [gs] at hb
      by_cases hij : i = j
      · rw [if_pos hij] at ha hb
        cases ha; cases hb
        subst hij
        obtain ⟨g1, g2, g3, g4⟩ := hk2 hda
        refine ⟨_, r, r1, by rw [if_pos rfl], by rw [if_pos rfl, hreads], g1, g2, g3, ?_⟩
        have hr := hinv.run
        rw [hkr, hrun, hreads] at hr
        rw [if_pos rfl]
        exact tok_run_panic hr hkf g4
      · rw [if_neg hij] at ha hb
        rw [if_neg hij, if_neg hij, List.append_nil, List.append_nil]
        exact h.doom j a b ha hb hda }

/-- A pair leaves a connection: towards the pipeline, or towards `Receive`. -/
theorem Sim.push {t : Transport} {n : Nat} {es : List SEvent} {f : SState} {es' : List Event} {s : State} {P G : Marked}
    (h : Sim t n es f es' s P G) {e : SEvent} (he : ∀ j, sreadsOf j [e] = []) {i : Nat} {c : SConn} {w : Work} {d : Tok.Delivered}
    (hc : f.conns[i]? = some c)
    (hw : c.work = some w) (hs : w.sending = some d) (hp : c.errPending = false) (hcl : f.pipelineClosed = false) :
    (f.pipeline.length < n → ∃ es2 s' P', Sim t n (es ++ [e]) ({ f with pipeline := f.pipeline ++ [(i, d)] }.setConn i (c.sent w))
      (es' ++ es2) s' P' G) ∧
    (f.pipeline.length = 0 → ∃ es2 s' G', Sim t n (es ++ [e]) ({ f with got := f.got ++ [(i, d)] }.setConn i (c.sent w))
      (es' ++ es2) s' P G') := by
  obtain ⟨k, hk, hrc⟩ := h.get hc
  have hkp : k.errPending = false := by rw [← hrc.1]; exact hp
  have hlen : s.pipeline.length ≤ f.pipeline.length := by
    rw [h.pipe.1, h.pipe.2, List.length_map, List.length_map]
    exact List.length_filter_le _ _
  have hal := h.alive.2
  rcases hrc.sent hw hs with ⟨hd, hd', r, hpe, hrc'⟩ | ⟨hd, hd', hpe, hrc'⟩
  · constructor
    · intro hl
      have hst : step t n s (.sendMsg i) = some ({ s with pipeline := s.pipeline ++ [(i, d)] }.setConn i { k with pending := r }) := by
        unfold step
        rw [if_neg (by rw [hal]; simp)]
        simp only [hk, hpe]
        rw [if_neg (by rw [hkp]; simp), if_neg (by rw [← h.closed, hcl]; simp), if_pos (by omega)]
      refine ⟨[.sendMsg i], { s with pipeline := s.pipeline ++ [(i, d)] }.setConn i { k with pending := r }, P ++ [(true, i, d)], ?_⟩
      refine h.one hc hk (run_one hst) he (fun _ => rfl) h.alive h.pc h.closed h.errs h.ended h.nils rfl rfl hrc'
        ⟨fun x => absurd x hd', fun x => absurd x hd⟩ (fun x => absurd x hd) ?_ h.got ?_
      · exact ⟨by simp [SState.setConn, h.pipe.1], by simp [State.setConn, h.pipe.2]⟩
      · intro x hx
        simp only [List.mem_append, List.mem_singleton] at hx ⊢
        rcases hx with (hx | rfl) | hx
        · exact Or.inl (Or.inl hx)
        · exact Or.inr ⟨rfl, fun hx => by cases hx⟩
        · exact Or.inl (Or.inr hx)
    · intro hl
      have hst : step t n s (.handoff i) = some ({ s with got := s.got ++ [(i, d)] }.setConn i { k with pending := r }) := by
        unfold step
        rw [if_neg (by rw [hal]; simp)]
        simp only [hk, hpe]
        rw [if_neg (by
          rintro (hx | hx | hx)
          · rw [hkp] at hx; cases hx
          · rw [← h.closed, hcl] at hx; cases hx
          · omega)]
      refine ⟨[.handoff i], { s with got := s.got ++ [(i, d)] }.setConn i { k with pending := r }, G ++ [(true, i, d)], ?_⟩
      refine h.one hc hk (run_one hst) he (fun _ => rfl) h.alive h.pc h.closed h.errs h.ended h.nils rfl rfl hrc'
        ⟨fun x => absurd x hd', fun x => absurd x hd⟩ (fun x => absurd x hd) h.pipe ?_ ?_
      · exact ⟨by simp [SState.setConn, h.got.1], by simp [State.setConn, h.got.2]⟩
      · intro x hx
        simp only [List.mem_append, List.mem_singleton] at hx ⊢
        rcases hx with hx | hx | rfl
        · exact Or.inl (Or.inl hx)
        · exact Or.inl (Or.inr hx)
        · exact Or.inr ⟨rfl, fun hx => by cases hx⟩
  · have hsc : s.conns = s.conns.set i k := (set_same hk).symm
    constructor
    · intro _
      refine ⟨[], s, P ++ [(false, i, d)], ?_⟩
      refine h.one hc hk rfl he (fun _ => rfl) h.alive h.pc h.closed h.errs h.ended h.nils rfl hsc hrc'
        ⟨fun _ => hd, fun _ => hd'⟩ (fun _ => rfl) ?_ h.got ?_
      · exact ⟨by simp [SState.setConn, h.pipe.1], by simp [h.pipe.2]⟩
      · intro x hx
        simp only [List.mem_append, List.mem_singleton] at hx ⊢
        rcases hx with (hx | rfl) | hx
        · exact Or.inl (Or.inl hx)
        · exact Or.inr ⟨rfl, fun _ => hd⟩
        · exact Or.inl (Or.inr hx)
    · intro _
      refine ⟨[], s, G ++ [(false, i, d)], ?_⟩
      refine h.one hc hk rfl he (fun _ => rfl) h.alive h.pc h.closed h.errs h.ended h.nils rfl hsc hrc'
        ⟨fun _ => hd, fun _ => hd'⟩ (fun _ => rfl) h.pipe ?_ ?_
      · exact ⟨by simp [SState.setConn, h.got.1], by simp [h.got.2]⟩
      · intro x hx
        simp only [List.mem_append, List.mem_singleton] at hx ⊢
        rcases hx with hx | hx | rfl
        · exact Or.inl (Or.inl hx)
        · exact Or.inl (Or.inr hx)
        · exact Or.inr ⟨rfl, fun _ => hd⟩

theorem crash_now {t : Transport} {n : Nat} {es : List SEvent} {e : SEvent} {f : SState} {es' : List Event} {s : State} {e' : Event}
    (h : step t n s e' = some { s with crashed := true }) (he : ∀ j, sreadsOf j [e] = [])
    (he' : ∀ j : Nat, (∀ c, f.conns[j]? = some c → ¬ Doomed t c) → readsOf j [e'] = []) :
    SimNext t n es e f { f with crashed := true } es' s :=
  Or.inr ⟨rfl, he, e', _, h, rfl, he'⟩

/-- One event. -/
theorem sim_step {t : Transport} {n : Nat} {es : List SEvent} {e : SEvent} {f f' : SState} {es' : List Event} {s : State} {P G : Marked}
    (h : Sim t n es f es' s P G) (hst : sstep t n f e = some f') : SimNext t n es e f f' es' s := by
  have hal := h.alive.2
  unfold sstep at hst
  rw [if_neg (by rw [h.alive.1]; simp)] at hst
  cases e with
  | decode i =>
    simp only at hst
    cases hc : f.conns[i]? with
    | none => rw [hc] at hst; cases hst
    | some c =>
      rw [hc] at hst
      simp only at hst
      cases hw : c.work with
      | none => rw [hw] at hst; cases hst
      | some w =>
        rw [hw] at hst
        simp only at hst
        split at hst
        · cases hst
        rename_i hg
        have hep : c.errPending = false := by cases hx : c.errPending with
          | false => rfl
          | true => exact absurd (Or.inl hx) hg
        have hse : w.sending = none := by cases hx : w.sending with
          | none => rfl
          | some d => exact absurd (Or.inr (by rw [hx]; rfl)) hg
        obtain ⟨k, hk, hrc⟩ := h.get hc
        have hsc : s.conns = s.conns.set i k := (set_same hk).symm
        have hcap : w.data.cap < 2 ^ 63 := by
          have := hrc.2.2
          rw [hw] at this
          exact this.2.1
        cases hp : parse (some w.data) (some t) w.eof with
        | hang => rw [hp] at hst; cases hst
        | panic =>
          rw [hp] at hst
          simp only [Option.some.injEq] at hst
          subst hst
          have hd : Doomed t c := (doomed_iff hw hcap).2 (restOf_now hse hp)
          obtain ⟨e', s', h1, rfl, h2⟩ := h.crash hc hd hep
          exact crash_now h1 (fun _ => rfl) h2
        | ret x =>
          obtain ⟨m, rest, pe⟩ := x
          rw [hp] at hst
          cases rest with
          | none =>
            simp only [Option.some.injEq] at hst
            subst hst
            have hr := restOf_stop hse hp
            have hnd : ¬ Doomed t c := by rw [doomed_iff hw hcap, hr]; simp
            refine Or.inl ⟨[], s, P, G, ?_⟩
            exact h.one hc hk rfl (fun _ => rfl) (fun _ => rfl) h.alive h.pc h.closed h.errs h.ended h.nils rfl hsc (hrc.finish hw hr hse)
              ⟨fun x => absurd x (doomed_none rfl), fun x => absurd x hnd⟩ (fun x => absurd x hnd) h.pipe h.got (fun _ hx => Or.inl hx)
          | some r =>
            simp only [Option.some.injEq] at hst
            subst hst
            obtain ⟨h1, h2⟩ := hrc.more hw hse hp
            refine Or.inl ⟨[], s, P, G, ?_⟩
            exact h.one hc hk rfl (fun _ => rfl) (fun _ => rfl) h.alive h.pc h.closed h.errs h.ended h.nils rfl hsc h1
              h2 (fun _ => rfl) h.pipe h.got (fun _ hx => Or.inl hx)
  | std e =>
    cases e with
    | tau =>
      simp only at hst
      have key : ∀ f2 s2, step t n s .tau = some s2 → f2.pipeline = f.pipeline → f2.got = f.got → f2.conns = f.conns → f2.crashed = false →
          s2.pipeline = s.pipeline → s2.got = s.got → s2.conns = s.conns → s2.crashed = false → f2.pc = s2.pc →
          f2.pipelineClosed = s2.pipelineClosed → f2.errs = s2.errs → f2.ended = s2.ended → f2.nilConns = s2.nilConns →
          SimNext t n es (.std .tau) f f2 es' s := by
        intro f2 s2 hs2 a1 a2 a3 a4 b1 b2 b3 b4 c1 c2 c3 c4 c5
        refine Or.inl ⟨[.tau], s2, P, G, h.keep (run_one hs2) (fun _ => rfl) (fun _ => rfl) ⟨a4, b4⟩ c1 c2 c3 c4 c5 a3 b3 ?_ ?_ (fun _ hx => hx)⟩
        · rw [a1, b1]; exact h.pipe
        · rw [a2, b2]; exact h.got
      have hs2 : step t n s .tau = match s.pc with
          | .select => some { s with pc := if s.ended then .closePipe else .accept }
          | .errSend => if s.errs < errCap then some { s with errs := s.errs + 1, nilConns := s.nilConns + 1, pc := .select } else none
          | .closePipe => some { s with pipelineClosed := true, pc := .closeListener }
          | .closeListener => some { s with pc := .done }
          | _ => none := by
        unfold step
        rw [if_neg (by rw [hal]; simp)]
        simp only
        cases s.pc <;> rfl
      have hpc := h.pc
      cases hx : f.pc with
      | select =>
        rw [hx] at hst hpc
        rw [← hpc] at hs2
        simp only [Option.some.injEq] at hst
        subst hst
        exact key _ _ hs2 rfl rfl rfl h.alive.1 rfl rfl rfl hal (by rw [h.ended]) h.closed h.errs h.ended h.nils
      | errSend =>
        rw [hx] at hst hpc
        rw [← hpc] at hs2
        simp only at hst hs2
        split at hst
        · rename_i hlt
          rw [if_pos (by rw [← h.errs]; exact hlt)] at hs2
          simp only [Option.some.injEq] at hst
          subst hst
          exact key _ _ hs2 rfl rfl rfl h.alive.1 rfl rfl rfl hal rfl h.closed (by rw [h.errs]) h.ended (by rw [h.nils])
        · cases hst
      | closePipe =>
        rw [hx] at hst hpc
        rw [← hpc] at hs2
        simp only [Option.some.injEq] at hst
        subst hst
        exact key _ _ hs2 rfl rfl rfl h.alive.1 rfl rfl rfl hal rfl rfl h.errs h.ended h.nils
      | closeListener =>
        rw [hx] at hst hpc
        rw [← hpc] at hs2
        simp only [Option.some.injEq] at hst
        subst hst
        exact key _ _ hs2 rfl rfl rfl h.alive.1 rfl rfl rfl hal rfl h.closed h.errs h.ended h.nils
      | accept => rw [hx] at hst; cases hst
      | done => rw [hx] at hst; cases hst
    | acceptOk =>
      simp only at hst
      split at hst
      · rename_i hpc
        simp only [Option.some.injEq] at hst
        subst hst
        exact Or.inl ⟨_, _, _, _, h.accept hpc⟩
      · cases hst
    | acceptErr =>
      simp only at hst
      split at hst
      · rename_i hpc
        simp only [Option.some.injEq] at hst
        subst hst
        have hs2 : step t n s .acceptErr = some { s with pc := .errSend } := by
          unfold step
          rw [if_neg (by rw [hal]; simp)]
          simp only
          rw [if_pos (by rw [← h.pc, hpc])]
        exact Or.inl ⟨_, _, P, G, h.keep (run_one hs2) (fun _ => rfl) (fun _ => rfl) h.alive rfl h.closed h.errs h.ended h.nils rfl rfl h.pipe h.got
          (fun _ hx => hx)⟩
      · cases hst
    | nilStart =>
      simp only at hst
      split at hst
      · rename_i hn
        simp only [Option.some.injEq] at hst
        subst hst
        refine crash_now (e' := .nilStart) ?_ (fun _ => rfl) (fun _ _ => rfl)
        unfold step
        rw [if_neg (by rw [hal]; simp)]
        simp only
        rw [if_pos (by rw [← h.nils]; exact hn)]
      · cases hst
    | read i r =>
      simp only at hst
      cases hc : f.conns[i]? with
      | none => rw [hc] at hst; cases hst
      | some c =>
        rw [hc] at hst
        simp only at hst
        split at hst
        · rename_i hg
          obtain ⟨g1, g2, g3, g4⟩ := hg
          have hw : c.work = none := by simpa using g2
          have hep : c.errPending = false := by simpa using g3
          cases hl : c.load r with
          | hang => rw [hl] at hst; cases hst
          | panic =>
            obtain ⟨k, hk, hrc⟩ := h.get hc
            have hinv := (inv_run h.run h.alive.2).conn i k hk
            have htok : k.tok = c.tok := by
              have := hrc.2.2
              rw [hw] at this
              exact this.1
            obtain ⟨c1, hl1, _⟩ := RC.load hrc hw g1 g4 (by rw [← htok]; exact hinv.mem)
            rw [hl] at hl1; cases hl1
          | ret c' =>
            rw [hl] at hst
            simp only [Option.some.injEq] at hst
            subst hst
            obtain ⟨e', s', hS⟩ := h.read hc g1 hw hep g4 hl
            exact Or.inl ⟨_, _, _, _, hS⟩
        · cases hst
    | sendErr i =>
      simp only at hst
      cases hc : f.conns[i]? with
      | none => rw [hc] at hst; cases hst
      | some c =>
        rw [hc] at hst
        simp only at hst
        split at hst
        · rename_i hg
          simp only [Option.some.injEq] at hst
          subst hst
          obtain ⟨k, hk, hrc⟩ := h.get hc
          have hs2 : step t n s (.sendErr i) = some ({ s with errs := s.errs + 1 }.setConn i { k with errPending := false }) := by
            unfold step
            rw [if_neg (by rw [hal]; simp)]
            simp only [hk]
            rw [if_pos ⟨by rw [← hrc.1]; exact hg.1, by rw [← h.errs]; exact hg.2⟩]
          refine Or.inl ⟨[.sendErr i], { s with errs := s.errs + 1 }.setConn i { k with errPending := false }, P, G, ?_⟩
          refine h.one hc hk (run_one hs2) (fun _ => rfl) (fun _ => rfl) h.alive h.pc h.closed ?_ h.ended h.nils rfl rfl ?_
            Iff.rfl (fun _ => rfl) h.pipe h.got (fun _ hx => Or.inl hx)
          · simp [SState.setConn, State.setConn, h.errs]
          · exact ⟨rfl, hrc.2.1, hrc.2.2⟩
        · cases hst
    | sendMsg i =>
      simp only at hst
      cases hc : f.conns[i]? with
      | none => rw [hc] at hst; cases hst
      | some c =>
        rw [hc] at hst
        simp only at hst
        cases hw : c.work with
        | none => rw [hw] at hst; cases hst
        | some w =>
          obtain ⟨data, eof, lenRead, sending⟩ := w
          rw [hw] at hst
          cases sending with
          | none => cases hst
          | some d =>
            simp only at hst
            split at hst
            · cases hst
            rename_i hep
            have hep : c.errPending = false := by simpa using hep
            split at hst
            · rename_i hcl
              simp only [Option.some.injEq] at hst
              subst hst
              obtain ⟨k, hk, hrc⟩ := h.get hc
              rcases hrc.sent hw rfl with ⟨_, _, r, hpe, _⟩ | ⟨hd, _⟩
              · refine crash_now (e' := .sendMsg i) ?_ (fun _ => rfl) (fun _ _ => rfl)
                unfold step
                rw [if_neg (by rw [hal]; simp)]
                simp only [hk, hpe]
                rw [if_neg (by rw [← hrc.1, hep]; simp), if_pos (by rw [← h.closed]; exact hcl)]
              · obtain ⟨e', s', h1, rfl, h2⟩ := h.crash hc hd hep
                exact crash_now h1 (fun _ => rfl) h2
            · rename_i hcl
              split at hst
              · rename_i hlen
                simp only [Option.some.injEq] at hst
                subst hst
                obtain ⟨a, b, P', hS⟩ := (h.push (e := .std (.sendMsg i)) (fun _ => rfl) hc hw rfl hep (by simpa using hcl)).1 hlen
                exact Or.inl ⟨a, b, P', G, hS⟩
              · cases hst
    | close i =>
      simp only at hst
      cases hc : f.conns[i]? with
      | none => rw [hc] at hst; cases hst
      | some c =>
        rw [hc] at hst
        simp only at hst
        split at hst
        · rename_i hg
          obtain ⟨g1, g2, g3, g4⟩ := hg
          simp only [Option.some.injEq] at hst
          subst hst
          obtain ⟨k, hk, hrc⟩ := h.get hc
          have hw : c.work = none := by simpa using g2
          obtain ⟨r1, r2, r3⟩ := hrc
          rw [hw] at r3
          have hs2 : step t n s (.close i) = some (s.setConn i { k with closed := true }) := by
            unfold step
            rw [if_neg (by rw [hal]; simp)]
            simp only [hk]
            rw [if_pos ⟨by rw [r3.2.2]; exact g1, by rw [r3.2.1]; rfl, by rw [← r1]; exact g3, by rw [← r2]; exact g4⟩]
          refine Or.inl ⟨[.close i], s.setConn i { k with closed := true }, P, G, ?_⟩
          refine h.one hc hk (run_one hs2) (fun _ => rfl) (fun _ => rfl) h.alive h.pc h.closed h.errs h.ended h.nils rfl rfl ?_
            Iff.rfl (fun _ => rfl) h.pipe h.got (fun _ hx => Or.inl hx)
          refine ⟨r1, rfl, ?_⟩
          simp only
          rw [hw]; exact r3
        · cases hst
    | recv =>
      simp only at hst
      have hp := h.pipe
      cases hP : P with
      | nil =>
        rw [hP] at hp
        rw [hp.1] at hst
        cases hst
      | cons x P1 =>
        rw [hP] at hp
        rw [hp.1] at hst
        simp only [List.map_cons, Option.some.injEq] at hst
        subst hst
        obtain ⟨b, y⟩ := x
        cases b with
        | false =>
          refine Or.inl ⟨[], s, P1, G ++ [(false, y)], h.keep rfl (fun _ => rfl) (fun _ => rfl) h.alive h.pc h.closed h.errs h.ended h.nils rfl rfl ?_ ?_ ?_⟩
          · exact ⟨rfl, by rw [hp.2]; rfl⟩
          · exact ⟨by simp [h.got.1], by simp [h.got.2]⟩
          · intro x hx
            rw [hP]
            simp only [List.mem_append, List.mem_cons, List.not_mem_nil, or_false] at hx ⊢
            rcases hx with hx | hx | hx
            · exact Or.inl (Or.inr hx)
            · exact Or.inr hx
            · exact Or.inl (Or.inl hx)
        | true =>
          have hs2 : step t n s .recv = some { s with pipeline := (P1.filter (·.1)).map (·.2), got := s.got ++ [y] } := by
            unfold step
            rw [if_neg (by rw [hal]; simp)]
            simp only
            rw [hp.2]
            rfl
          refine Or.inl ⟨[.recv], { s with pipeline := (P1.filter (·.1)).map (·.2), got := s.got ++ [y] }, P1, G ++ [(true, y)], h.keep (run_one hs2) (fun _ => rfl) (fun _ => rfl) h.alive h.pc h.closed h.errs h.ended h.nils rfl rfl ?_ ?_ ?_⟩
          · exact ⟨rfl, rfl⟩
          · exact ⟨by simp [h.got.1], by simp [h.got.2]⟩
          · intro x hx
            rw [hP]
            simp only [List.mem_append, List.mem_cons, List.not_mem_nil, or_false] at hx ⊢
            rcases hx with hx | hx | hx
            · exact Or.inl (Or.inr hx)
            · exact Or.inr hx
            · exact Or.inl (Or.inl hx)
    | handoff i =>
      simp only at hst
      cases hc : f.conns[i]? with
      | none => rw [hc] at hst; cases hst
      | some c =>
        rw [hc] at hst
        simp only at hst
        cases hw : c.work with
        | none => rw [hw] at hst; cases hst
        | some w =>
          obtain ⟨data, eof, lenRead, sending⟩ := w
          rw [hw] at hst
          cases sending with
          | none => cases hst
          | some d =>
            simp only at hst
            split at hst
            · cases hst
            rename_i hg
            simp only [Option.some.injEq] at hst
            subst hst
            have hep : c.errPending = false := by cases hx : c.errPending with
              | false => rfl
              | true => exact absurd (Or.inl hx) hg
            have hcl : f.pipelineClosed = false := by cases hx : f.pipelineClosed with
              | false => rfl
              | true => exact absurd (Or.inr (Or.inl hx)) hg
            have hlen : f.pipeline.length = 0 := by
              by_cases hx : f.pipeline.length = 0
              · exact hx
              · exact absurd (Or.inr (Or.inr hx)) hg
            obtain ⟨a, b, G', hS⟩ := (h.push (e := .std (.handoff i)) (fun _ => rfl) hc hw rfl hep hcl).2 hlen
            exact Or.inl ⟨a, b, P, G', hS⟩
    | recvClosed =>
      simp only at hst
      split at hst
      · rename_i hg
        simp only [Option.some.injEq] at hst
        subst hst
        exact Or.inl ⟨[], s, P, G, h.keep rfl (fun _ => rfl) (fun _ => rfl) h.alive h.pc h.closed h.errs h.ended h.nils rfl rfl h.pipe h.got
          (fun _ hx => hx)⟩
      · cases hst
    | endCall =>
      simp only at hst
      split at hst
      · rename_i he
        simp only [Option.some.injEq] at hst
        subst hst
        refine crash_now (e' := .endCall) ?_ (fun _ => rfl) (fun _ _ => rfl)
        unfold step
        rw [if_neg (by rw [hal]; simp)]
        simp only
        rw [if_pos (by rw [← h.ended]; exact he)]
      · rename_i he
        simp only [Option.some.injEq] at hst
        subst hst
        have hs2 : step t n s .endCall = some { s with ended := true } := by
          unfold step
          rw [if_neg (by rw [hal]; simp)]
          simp only
          rw [if_neg (by rw [← h.ended]; exact he)]
        exact Or.inl ⟨_, _, P, G, h.keep (run_one hs2) (fun _ => rfl) (fun _ => rfl) h.alive h.pc h.closed h.errs rfl h.nils rfl rfl h.pipe h.got
          (fun _ hx => hx)⟩
    | recvErr =>
      simp only at hst
      split at hst
      · rename_i he
        simp only [Option.some.injEq] at hst
        subst hst
        have hs2 : step t n s .recvErr = some { s with errs := s.errs - 1 } := by
          unfold step
          rw [if_neg (by rw [hal]; simp)]
          simp only
          rw [if_pos (by rw [← h.errs]; exact he)]
        exact Or.inl ⟨_, _, P, G, h.keep (run_one hs2) (fun _ => rfl) (fun _ => rfl) h.alive h.pc h.closed (by rw [h.errs]) h.ended h.nils rfl rfl h.pipe h.got
          (fun _ hx => hx)⟩
      · cases hst

end Syslog5424.Recv
