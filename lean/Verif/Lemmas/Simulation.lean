import Verif.Lemmas.Stepwise
/-! # Lemmas: decoding message by message is simulated by decoding at once -/
namespace Syslog5424.Recv
open Spec Tok

theorem sreadsOf_append (i : Nat) (a b : List SEvent) : sreadsOf i (a ++ b) = sreadsOf i a ++ sreadsOf i b := by
  simp [sreadsOf, List.filterMap_append]

/-- The pairs that the current read brings. -/
def mk (c : SConn) (d : MsgImm × Option Err) : Tok.Delivered := ⟨c.tok.old.length, d.1, d.2⟩

/-- A connection and its counterpart, which decodes at once what was read; if this panics it did not see what was read. -/
def RC (t : Transport) (c : SConn) (k : Conn) : Prop :=
  c.errPending = k.errPending ∧ c.closed = k.closed ∧
  match c.work with
  | none => k.tok = c.tok ∧ k.pending = [] ∧ k.running = c.running
  | some w => c.running = true ∧ w.data.cap < 2 ^ 63 ∧
    ((∃ d' ds, restOf t w = .ret (d', ds) ∧ k.pending = w.sending.toList ++ ds.map (mk c) ∧
        k.tok = Tok.advance c.tok w.lenRead d'.len (c.tok.out ++ ds.map (mk c)) ∧ k.running = !w.eof) ∨
      (restOf t w = .panic ∧ k.pending = [] ∧ k.running = true ∧ ∃ ds, c.tok = { k.tok with out := k.tok.out ++ ds }))

/-- The simulation, while the program did not crash. The marks tell which pairs do not come from a doomed connection. -/
structure Sim (t : Transport) (n : Nat) (es : List SEvent) (f : SState) (es' : List Event) (s : State)
    (P G : List (Bool × Nat × Tok.Delivered)) : Prop where
  run : Recv.run t n init es' = some s
  alive : f.crashed = false ∧ s.crashed = false
  pc : f.pc = s.pc
  closed : f.pipelineClosed = s.pipelineClosed
  errs : f.errs = s.errs
  ended : f.ended = s.ended
  nils : f.nilConns = s.nilConns
  len : f.conns.length = s.conns.length
  conn : ∀ (i : Nat) (c : SConn) (k : Conn), f.conns[i]? = some c → s.conns[i]? = some k → RC t c k
  pipe : f.pipeline = P.map (·.2) ∧ s.pipeline = (P.filter (·.1)).map (·.2)
  got : f.got = G.map (·.2) ∧ s.got = (G.filter (·.1)).map (·.2)
  marks : ∀ x ∈ P ++ G, x.1 = false → ∃ c, f.conns[x.2.1]? = some c ∧ Doomed t c
  reads : ∀ i : Nat, (∀ c, f.conns[i]? = some c → ¬ Doomed t c) → readsOf i es' = sreadsOf i es
  doom : ∀ (i : Nat) (c : SConn) (k : Conn), f.conns[i]? = some c → s.conns[i]? = some k → Doomed t c →
    ∃ pre r r', sreadsOf i es = pre ++ [r] ∧ readsOf i es' = pre ++ [r'] ∧ r'.data = [] ∧ r.Fits k.tok ∧
      Tok.step t k.tok r = .panic ∧ Tok.Run t Tok.init (sreadsOf i es) .panic

/-- The counterpart of a connection. -/
theorem Sim.get {t : Transport} {n : Nat} {es : List SEvent} {f : SState} {es' : List Event} {s : State}
    {P G : List (Bool × Nat × Tok.Delivered)} (h : Sim t n es f es' s P G) {i : Nat} {c : SConn} (hc : f.conns[i]? = some c) :
    ∃ k, s.conns[i]? = some k ∧ RC t c k := by
  have hl := (List.getElem?_eq_some_iff.1 hc).1
  rw [h.len] at hl
  exact ⟨s.conns[i], List.getElem?_eq_getElem hl, h.conn i c _ hc (List.getElem?_eq_getElem hl)⟩

/-- Nothing happens to the connections. -/
theorem Sim.keep {t : Transport} {n : Nat} {es : List SEvent} {f : SState} {es' : List Event} {s : State}
    {P G : List (Bool × Nat × Tok.Delivered)} (h : Sim t n es f es' s P G) {e : SEvent} {es2 : List Event} {f' : SState} {s' : State}
    {P' G' : List (Bool × Nat × Tok.Delivered)} (hr : Recv.run t n s es2 = some s')
    (he : ∀ j, sreadsOf j [e] = []) (he2 : ∀ j, readsOf j es2 = [])
    (hal : f'.crashed = false ∧ s'.crashed = false) (hpc : f'.pc = s'.pc) (hcl : f'.pipelineClosed = s'.pipelineClosed)
    (her : f'.errs = s'.errs) (hen : f'.ended = s'.ended) (hni : f'.nilConns = s'.nilConns)
    (hfc : f'.conns = f.conns) (hsc : s'.conns = s.conns)
    (hpipe : f'.pipeline = P'.map (·.2) ∧ s'.pipeline = (P'.filter (·.1)).map (·.2))
    (hgot : f'.got = G'.map (·.2) ∧ s'.got = (G'.filter (·.1)).map (·.2)) (hm : ∀ x ∈ P' ++ G', x ∈ P ++ G) :
    Sim t n (es ++ [e]) f' (es' ++ es2) s' P' G' where
  run := by rw [run_append, h.run]; exact hr
  alive := hal
  pc := hpc
  closed := hcl
  errs := her
  ended := hen
  nils := hni
  len := by rw [hfc, hsc]; exact h.len
  conn := by rw [hfc, hsc]; exact h.conn
  pipe := hpipe
  got := hgot
  marks := by rw [hfc]; exact fun x hx => h.marks x (hm x hx)
  reads := by
    intro i
    rw [hfc, sreadsOf_append, readsOf_append, he, he2, List.append_nil, List.append_nil]
    exact h.reads i
  doom := by
    intro i
    rw [hfc, hsc, sreadsOf_append, readsOf_append, he, he2, List.append_nil, List.append_nil]
    exact h.doom i

/-- One connection changes, without a read. -/
theorem Sim.one {t : Transport} {n : Nat} {es : List SEvent} {f : SState} {es' : List Event} {s : State}
    {P G : List (Bool × Nat × Tok.Delivered)} (h : Sim t n es f es' s P G) {e : SEvent} {es2 : List Event} {f' : SState} {s' : State}
    {P' G' : List (Bool × Nat × Tok.Delivered)} {i : Nat} {c c' : SConn} {k k' : Conn}
    (hc : f.conns[i]? = some c) (hk : s.conns[i]? = some k) (hr : Recv.run t n s es2 = some s')
    (he : ∀ j, sreadsOf j [e] = []) (he2 : ∀ j, readsOf j es2 = [])
    (hal : f'.crashed = false ∧ s'.crashed = false) (hpc : f'.pc = s'.pc) (hcl : f'.pipelineClosed = s'.pipelineClosed)
    (her : f'.errs = s'.errs) (hen : f'.ended = s'.ended) (hni : f'.nilConns = s'.nilConns)
    (hfc : f'.conns = f.conns.set i c') (hsc : s'.conns = s.conns.set i k') (hrc : RC t c' k')
    (hd : Doomed t c' ↔ Doomed t c) (htok : Doomed t c → k'.tok = k.tok)
    (hpipe : f'.pipeline = P'.map (·.2) ∧ s'.pipeline = (P'.filter (·.1)).map (·.2))
    (hgot : f'.got = G'.map (·.2) ∧ s'.got = (G'.filter (·.1)).map (·.2))
    (hm : ∀ x ∈ P' ++ G', x ∈ P ++ G ∨ (x.2.1 = i ∧ (x.1 = false → Doomed t c))) :
    Sim t n (es ++ [e]) f' (es' ++ es2) s' P' G' := by
  have hil := (List.getElem?_eq_some_iff.1 hc).1
  have hil' := (List.getElem?_eq_some_iff.1 hk).1
  have gf : ∀ j, f'.conns[j]? = if i = j then some c' else f.conns[j]? := by
    intro j; rw [hfc, List.getElem?_set]
    split
    · rename_i hj; subst hj; simp
    · rfl
  have gs : ∀ j, s'.conns[j]? = if i = j then some k' else s.conns[j]? := by
    intro j; rw [hsc, List.getElem?_set]
    split
    · rename_i hj; subst hj; simp
    · rfl
  have dtrans : ∀ j : Nat, (∃ x, f.conns[j]? = some x ∧ Doomed t x) → ∃ x, f'.conns[j]? = some x ∧ Doomed t x := by
    rintro j ⟨x, hx, hx'⟩
    rw [gf]
    by_cases hj : i = j
    · subst hj
      rw [hc] at hx; cases hx
      rw [if_pos rfl]
      exact ⟨c', rfl, hd.2 hx'⟩
    · rw [if_neg hj]; exact ⟨x, hx, hx'⟩
  exact {
    run := by rw [run_append, h.run]; exact hr
    alive := hal
    pc := hpc
    closed := hcl
    errs := her
    ended := hen
    nils := hni
    len := by rw [hfc, hsc, List.length_set, List.length_set]; exact h.len
    conn := by
      intro j a b ha hb
      rw [gf] at ha; rw [gs] at hb
      by_cases hj : i = j
      · rw [if_pos hj] at ha hb
        cases ha; cases hb; exact hrc
      · rw [if_neg hj] at ha hb
        exact h.conn j a b ha hb
    pipe := hpipe
    got := hgot
    marks := by
      intro x hx hx1
      rcases hm x hx with h1 | ⟨h1, h2⟩
      · exact dtrans _ (h.marks x h1 hx1)
      · exact ⟨c', by rw [gf, h1, if_pos rfl], hd.2 (h2 hx1)⟩
    reads := by
      intro j hj
      rw [sreadsOf_append, readsOf_append, he, he2, List.append_nil, List.append_nil]
      apply h.reads j
      intro a ha hda
      obtain ⟨x, hx, hx'⟩ := dtrans j ⟨a, ha, hda⟩
      exact hj x hx hx'
    doom := by
      intro j a b ha hb hda
      rw [sreadsOf_append, readsOf_append, he, he2, List.append_nil, List.append_nil]
      rw [gf] at ha; rw [gs] at hb
      by_cases hj : i = j
      · rw [if_pos hj] at ha hb
        cases ha; cases hb
        subst hj
        have := h.doom i c k hc hk (hd.1 hda)
        rw [htok (hd.1 hda)]
        exact this
      · rw [if_neg hj] at ha hb
        exact h.doom j a b ha hb hda }

theorem advance_out (s : Tok.State) (o : List Tok.Delivered) (l d : Nat) (out : List Tok.Delivered) :
    Tok.advance { s with out := o } l d out = Tok.advance s l d out := by
  unfold Tok.advance
  simp only

theorem advance_out_eq (s : Tok.State) (l d : Nat) (out : List Tok.Delivered) : (Tok.advance s l d out).out = out := by
  unfold Tok.advance; simp only; split <;> rfl

theorem overwrite_twice {a bs : Bytes} {i : Nat} (h : i ≤ a.length) : overwrite (overwrite a i bs) i bs = overwrite a i bs := by
  have e : (a.take i).length = i := by simp; omega
  simp only [overwrite, List.append_assoc]
  rw [List.take_left' e]
  congr 2
  rw [← List.append_assoc, List.drop_left' (by simp; omega)]

/-- The end of a pass. -/
theorem RC.finish {t : Transport} {c : SConn} {k : Conn} {w : Work} (h : RC t c k) (hw : c.work = some w)
    (hr : restOf t w = .ret (w.data, [])) (hs : w.sending = none) : RC t (c.finish w) k := by
  obtain ⟨h1, h2, h3⟩ := h
  rw [hw] at h3
  obtain ⟨h3, h4, h5⟩ := h3
  rcases h5 with ⟨d', ds, h5, h6, h7, h8⟩ | ⟨h5, _⟩
  · rw [hr] at h5
    cases h5
    refine ⟨h1, h2, ?_⟩
    rw [hs] at h6
    exact ⟨by rw [h7]; simp [SConn.finish], by simpa using h6, h8⟩
  · rw [hr] at h5; cases h5

/-- `Parse` returned a pair. -/
theorem RC.more {t : Transport} {c : SConn} {k : Conn} {w : Work} {m : MsgImm} {e : Option Err} {r : Slice}
    (h : RC t c k) (hw : c.work = some w) (hs : w.sending = none)
    (hp : parse (some w.data) (some t) w.eof = .ret (m, some r, e)) :
    let d : Tok.Delivered := ⟨c.tok.old.length, m, e⟩
    let c' : SConn := { c with tok := { c.tok with out := c.tok.out ++ [d] }, work := some { w with data := r, sending := some d } }
    RC t c' k ∧ (Doomed t c' ↔ Doomed t c) := by
  intro d c'
  obtain ⟨h1, h2, h3⟩ := h
  rw [hw] at h3
  obtain ⟨h3, hcap, h5⟩ := h3
  obtain ⟨g1, ⟨pre, hne, g2⟩, _⟩ := parse_rest hcap hp
  have hc : r.cap < 2 ^ 63 := by simp only [Slice.cap, g1, g2, List.length_append] at hcap ⊢; omega
  have hm := restOf_more d hs hcap hp
  have hd : Doomed t c' ↔ Doomed t c := by
    rw [doomed_iff (w := { w with data := r, sending := some d }) rfl hc, doomed_iff hw hcap, hm]
    cases restOf t { w with data := r, sending := some d } <;> simp [Out.bind]
  refine ⟨⟨h1, h2, ?_⟩, hd⟩
  refine ⟨h3, hc, ?_⟩
  rcases h5 with ⟨d', ds, h5, h6, h7, h8⟩ | ⟨h5, h6, h7, ds, h8⟩
  · left
    rw [hm] at h5
    cases hx : restOf t { w with data := r, sending := some d } with
    | panic => rw [hx] at h5; cases h5
    | hang => rw [hx] at h5; cases h5
    | ret x =>
      obtain ⟨d'', ds'⟩ := x
      rw [hx] at h5
      simp only [Out.bind, Out.ret.injEq, Prod.mk.injEq] at h5
      obtain ⟨rfl, rfl⟩ := h5
      refine ⟨d'', ds', rfl, ?_, ?_, h8⟩
      · rw [h6, hs]; rfl
      · rw [h7]
        refine Eq.trans ?_ (advance_out c.tok (c.tok.out ++ [d]) w.lenRead d''.len ((c.tok.out ++ [d]) ++ ds'.map (mk c))).symm
        rw [List.append_assoc]; rfl
  · right
    rw [hm] at h5
    refine ⟨?_, h6, h7, ds ++ [d], ?_⟩
    · cases hx : restOf t { w with data := r, sending := some d } with
      | panic => rfl
      | hang => rw [hx] at h5; cases h5
      | ret x => rw [hx] at h5; cases h5
    · show { c.tok with out := c.tok.out ++ [d] } = _
      rw [h8]; simp

/-- The pair was sent. -/
theorem RC.sent {t : Transport} {c : SConn} {k : Conn} {w : Work} {d : Tok.Delivered} (h : RC t c k) (hw : c.work = some w)
    (hs : w.sending = some d) :
    (¬ Doomed t c ∧ ¬ Doomed t (c.sent w) ∧ ∃ r, k.pending = d :: r ∧ RC t (c.sent w) { k with pending := r }) ∨
    (Doomed t c ∧ Doomed t (c.sent w) ∧ k.pending = [] ∧ RC t (c.sent w) k) := by
  obtain ⟨h1, h2, h3⟩ := h
  rw [hw] at h3
  obtain ⟨h3, hcap, h5⟩ := h3
  have hdi := doomed_iff (t := t) hw hcap
  rcases h5 with ⟨d', ds, h5, h6, h7, h8⟩ | ⟨h5, h6, h7, ds, h8⟩
  · left
    refine ⟨by rw [hdi, h5]; simp, ?_⟩
    rw [hs] at h6
    unfold SConn.sent
    by_cases h0 : w.data.len = 0
    · rw [if_pos h0]
      refine ⟨doomed_none rfl, _, h6, h1, h2, ?_⟩
      have : restOf t w = .ret (w.data, []) := by
        unfold restOf; rw [if_pos ⟨by rw [hs]; rfl, h0⟩]
      rw [this] at h5
      cases h5
      exact ⟨by simp only; rw [h7]; simp [SConn.finish], rfl, h8⟩
    · rw [if_neg h0]
      have hr := restOf_sent (t := t) h0
      refine ⟨?_, _, h6, h1, h2, ?_⟩
      · rw [doomed_iff (w := { w with sending := none }) rfl hcap, hr, h5]; simp
      · exact ⟨h3, hcap, Or.inl ⟨d', ds, by rw [hr]; exact h5, rfl, h7, h8⟩⟩
  · right
    have h0 : w.data.len ≠ 0 := by
      intro h0
      exact (restOf_panic h5).1 ⟨by rw [hs]; rfl, h0⟩
    have hr := restOf_sent (t := t) h0
    unfold SConn.sent
    rw [if_neg h0]
    refine ⟨hdi.2 h5, ?_, h6, h1, h2, ?_⟩
    · rw [doomed_iff (w := { w with sending := none }) rfl hcap, hr, h5]
    · exact ⟨h3, hcap, Or.inr ⟨by rw [hr]; exact h5, h6, h7, ds, h8⟩⟩

/-- `Read` returned. -/
theorem RC.load {t : Transport} {c : SConn} {k : Conn} {r : Tok.Read} (h : RC t c k) (hw : c.work = none) (hrun : c.running = true)
    (hf : r.Fits c.tok) (hmem : Tok.Mem c.tok) :
    (∃ c', c.load r = .ret c' ∧
      ((¬ Doomed t c' ∧ ∃ goOn tok, Tok.step t k.tok r = .ret (goOn, tok) ∧
          RC t c' { k with tok := tok, pending := tok.out.drop k.tok.out.length, errPending := decide (r.err = .other), running := goOn }) ∨
        (Doomed t c' ∧ ∃ r' tok, r'.data = [] ∧ r'.Fits k.tok ∧ (r'.err = .other ↔ r.err = .other) ∧
          Tok.step t k.tok r = .panic ∧ Tok.step t k.tok r' = .ret (true, tok) ∧ r.Fits tok ∧ Tok.step t tok r = .panic ∧ tok.out = k.tok.out ∧
          RC t c' { k with tok := tok, pending := [], errPending := decide (r.err = .other), running := true }))) := by
  obtain ⟨h1, h2, h3⟩ := h
  rw [hw] at h3
  obtain ⟨htok, hpend, hkr⟩ := h3
  have hsz := hmem.size
  have hft := hmem.fit
  rw [htok]
  have hff := hf
  simp only [Read.Fits, State.room] at hf
  have hb : c.tok.off + c.tok.done + (r.data ++ r.scratch).length ≤ c.tok.arr.length := by simp only [List.length_append]; omega
  have hdrop : ∀ l : List Tok.Delivered, l.drop l.length = [] := fun l => by simp
  unfold SConn.load
  simp only
  by_cases h0 : r.data.length = 0
  · have hst : Tok.step t c.tok r = .ret (!decide (r.err = .eof), { c.tok with
        arr := overwrite c.tok.arr (c.tok.off + c.tok.done) (r.data ++ r.scratch),
        errs := if r.err = .other then c.tok.errs + 1 else c.tok.errs }) := by
      unfold Tok.step
      simp only
      by_cases he : r.err = .eof
      · simp [h0, he]
      · simp [h0, he]
    by_cases he : r.err = .eof
    · rw [if_pos ⟨h0, by simp [he]⟩]
      refine ⟨_, rfl, Or.inl ⟨doomed_none hw, _, _, hst, rfl, h2, ?_⟩⟩
      simp only
      rw [hw]
      exact ⟨trivial, hdrop _, by simp [he]⟩
    · rw [if_neg (by simp [he]), if_pos h0]
      refine ⟨_, rfl, Or.inl ⟨doomed_none hw, _, _, hst, rfl, h2, ?_⟩⟩
      simp only
      rw [hw]
      exact ⟨trivial, hdrop _, by simp [he, hrun]⟩
  · rw [if_neg (by simp [h0]), if_neg h0]
    generalize ha : overwrite c.tok.arr (c.tok.off + c.tok.done) (r.data ++ r.scratch) = arr
    have hal : arr.length = readBuffer := by rw [← ha, overwrite_length hb, hsz]
    simp only [List.length_append] at hb
    have hsub := Slice.sub_nat (s := Slice.exact (arr.drop c.tok.off)) (i := 0) (j := r.data.length + c.tok.done) (by omega)
      (by simp [Slice.exact]; omega)
    rw [show ((0 : Nat) : Int) = 0 from rfl] at hsub
    rw [hsub]
    simp only [Out.ret_bind, Out.pure_eq, Slice.exact, List.drop_zero, List.append_nil]
    have hcap : Slice.cap ⟨List.take (r.data.length + c.tok.done) (List.drop c.tok.off arr),
        List.drop (r.data.length + c.tok.done) (List.drop c.tok.off arr)⟩ < 2 ^ 63 := by
      simp only [Slice.cap, List.length_take, List.length_drop, hal, readBuffer]; omega
    have hst : ∀ errs, Tok.step t { c.tok with arr := arr, errs := errs } r =
        (parseLoop t (decide (r.err = .eof)) (Slice.len ⟨List.take (r.data.length + c.tok.done) (List.drop c.tok.off arr),
          List.drop (r.data.length + c.tok.done) (List.drop c.tok.off arr)⟩ + 1) ⟨List.take (r.data.length + c.tok.done) (List.drop c.tok.off arr),
          List.drop (r.data.length + c.tok.done) (List.drop c.tok.off arr)⟩ []).bind fun x =>
        .ret (!decide (r.err = .eof), Tok.advance { c.tok with arr := arr, errs := if r.err = .other then errs + 1 else errs }
          (r.data.length + c.tok.done) x.1.len (c.tok.out ++ x.2.map fun d => ⟨c.tok.old.length, d.1, d.2⟩)) := by
      intro errs
      unfold Tok.step
      simp only
      have hov : overwrite arr (c.tok.off + c.tok.done) (r.data ++ r.scratch) = arr := by
        rw [← ha]
        exact overwrite_twice (by omega)
      rw [if_neg (by simp [h0]), if_neg h0, hov, hsub]
      simp only [Slice.exact, List.drop_zero, List.append_nil, Out.ret_bind]
      rfl
    have hst0 : Tok.step t c.tok r =
        (parseLoop t (decide (r.err = .eof)) (Slice.len ⟨List.take (r.data.length + c.tok.done) (List.drop c.tok.off arr),
          List.drop (r.data.length + c.tok.done) (List.drop c.tok.off arr)⟩ + 1) ⟨List.take (r.data.length + c.tok.done) (List.drop c.tok.off arr),
          List.drop (r.data.length + c.tok.done) (List.drop c.tok.off arr)⟩ []).bind fun x =>
        .ret (!decide (r.err = .eof), Tok.advance { c.tok with arr := arr, errs := if r.err = .other then c.tok.errs + 1 else c.tok.errs }
          (r.data.length + c.tok.done) x.1.len (c.tok.out ++ x.2.map fun d => ⟨c.tok.old.length, d.1, d.2⟩)) := by
      unfold Tok.step
      simp only
      rw [if_neg (by simp [h0]), if_neg h0, ha, hsub]
      simp only [Slice.exact, List.drop_zero, List.append_nil, Out.ret_bind]
      rfl
    generalize hD : (⟨List.take (r.data.length + c.tok.done) (List.drop c.tok.off arr),
      List.drop (r.data.length + c.tok.done) (List.drop c.tok.off arr)⟩ : Slice) = D at *
    refine ⟨_, rfl, ?_⟩
    have hrest : restOf t ⟨D, decide (r.err = .eof), r.data.length + c.tok.done, none⟩ =
        parseLoop t (decide (r.err = .eof)) (D.len + 1) D [] := by
      unfold restOf; rw [if_neg (by simp)]
    cases hp : parseLoop t (decide (r.err = .eof)) (D.len + 1) D [] with
    | hang => exact absurd hp (parseLoop_ne_hang _ _ _ _ _ hcap (Nat.lt_succ_self _))
    | ret x =>
      obtain ⟨d', ds⟩ := x
      left
      refine ⟨?_, _, _, by rw [hst0, hp]; rfl, rfl, h2, ?_⟩
      · rw [doomed_iff (w := ⟨D, decide (r.err = .eof), r.data.length + c.tok.done, none⟩) rfl hcap, hrest, hp]; simp
      · refine ⟨hrun, hcap, Or.inl ⟨d', ds, by rw [hrest, hp], ?_, rfl, rfl⟩⟩
        simp only
        rw [advance_out_eq, List.drop_left]
        rfl
    | panic =>
      right
      refine ⟨(doomed_iff (w := ⟨D, decide (r.err = .eof), r.data.length + c.tok.done, none⟩) rfl hcap).2 (by rw [hrest, hp]),
        ⟨[], r.data ++ r.scratch, if r.err = .other then .other else .none⟩,
        { c.tok with arr := arr, errs := if r.err = .other then c.tok.errs + 1 else c.tok.errs }, rfl, ?_, ?_, ?_, ?_, ?_, ?_, rfl, ?_⟩
      · simpa [Read.Fits, State.room] using hf
      · by_cases he : r.err = .other <;> simp [he]
      · rw [hst0, hp]; rfl
      · unfold Tok.step
        simp only [List.length_nil, List.nil_append, true_and, ha]
        by_cases he : r.err = .other <;> simp [he]
      · simp only [Read.Fits, State.room, hal] at hf ⊢; omega
      · rw [hst, hp]; rfl
      · exact ⟨rfl, h2, hrun, hcap, Or.inr ⟨by rw [hrest, hp], rfl, rfl, [], by simp⟩⟩

end Syslog5424.Recv
