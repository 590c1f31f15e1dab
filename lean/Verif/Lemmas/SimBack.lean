import Verif.Lemmas.SimRun
/-! # Lemmas: decoding at once is simulated by decoding message by message -/
namespace Syslog5424.Recv
open Spec Tok

/-- A connection that decodes message by message and its counterpart; when there is nothing to send, nothing is left to decode. -/
def BC (t : Transport) (c : SConn) (k : Conn) : Prop :=
  RC t c k ∧ ¬ Doomed t c ∧ (c.work = none ∨ c.errPending = true ∨ k.pending ≠ [])

structure Back (t : Transport) (n : Nat) (es : List Event) (s : State) (es' : List SEvent) (f : SState) : Prop where
  run : Recv.run t n init es = some s
  srun : Recv.srun t n sinit es' = some f
  alive : f.crashed = false ∧ s.crashed = false
  pc : f.pc = s.pc
  closed : f.pipelineClosed = s.pipelineClosed
  errs : f.errs = s.errs
  ended : f.ended = s.ended
  nils : f.nilConns = s.nilConns
  pipe : f.pipeline = s.pipeline
  got : f.got = s.got
  len : f.conns.length = s.conns.length
  conn : ∀ (i : Nat) (c : SConn) (k : Conn), f.conns[i]? = some c → s.conns[i]? = some k → BC t c k
  reads : ∀ i : Nat, sreadsOf i es' = readsOf i es

theorem Back.get {t : Transport} {n : Nat} {es : List Event} {s : State} {es' : List SEvent} {f : SState} (h : Back t n es s es' f)
    {i : Nat} {k : Conn} (hk : s.conns[i]? = some k) : ∃ c, f.conns[i]? = some c ∧ BC t c k := by
  have hl := (List.getElem?_eq_some_iff.1 hk).1
  rw [← h.len] at hl
  exact ⟨f.conns[i], List.getElem?_eq_getElem hl, h.conn i _ k (List.getElem?_eq_getElem hl) hk⟩

/-- What happens to the connections is given. -/
theorem Back.next {t : Transport} {n : Nat} {es : List Event} {s : State} {es' : List SEvent} {f : SState} (h : Back t n es s es' f)
    {e : Event} {s' : State} {es2 : List SEvent} {f' : SState} (hs : step t n s e = some s') (hr : Recv.srun t n f es2 = some f')
    (hal : f'.crashed = false ∧ s'.crashed = false) (hpc : f'.pc = s'.pc) (hcl : f'.pipelineClosed = s'.pipelineClosed)
    (her : f'.errs = s'.errs) (hen : f'.ended = s'.ended) (hni : f'.nilConns = s'.nilConns) (hpi : f'.pipeline = s'.pipeline)
    (hgo : f'.got = s'.got) (hlen : f'.conns.length = s'.conns.length)
    (hco : ∀ (i : Nat) (c : SConn) (k : Conn), f'.conns[i]? = some c → s'.conns[i]? = some k → BC t c k)
    (hre : ∀ j, sreadsOf j es2 = readsOf j [e]) : Back t n (es ++ [e]) s' (es' ++ es2) f' where
  run := by rw [run_append, h.run]; exact run_one hs
  srun := by rw [srun_append, h.srun]; exact hr
  alive := hal
  pc := hpc
  closed := hcl
  errs := her
  ended := hen
  nils := hni
  pipe := hpi
  got := hgo
  len := hlen
  conn := hco
  reads := by intro i; rw [sreadsOf_append, readsOf_append, h.reads, hre]

theorem Back.set {t : Transport} {n : Nat} {es : List Event} {s : State} {es' : List SEvent} {f : SState} (h : Back t n es s es' f)
    {i : Nat} {c' : SConn} {k' : Conn} (hb : BC t c' k') :
    ∀ (j : Nat) (c : SConn) (k : Conn), (f.conns.set i c')[j]? = some c → (s.conns.set i k')[j]? = some k → BC t c k := by
  intro j c k hc hk
  rw [List.getElem?_set] at hc hk
  by_cases hj : i = j
  · rw [if_pos hj] at hc hk
    split at hc
    · split at hk
      · cases hc; cases hk; exact hb
      · cases hk
    · cases hc
  · rw [if_neg hj] at hc hk
    exact h.conn j c k hc hk

theorem setConn_same {f : SState} {i : Nat} {c : SConn} (h : f.conns[i]? = some c) : f.setConn i c = f := by
  unfold SState.setConn; rw [set_same h]

theorem setConn_twice {f : SState} {i : Nat} {c c' : SConn} : (f.setConn i c).setConn i c' = f.setConn i c' := by
  unfold SState.setConn; simp

theorem setConn_get {f : SState} {i : Nat} {c c' : SConn} (h : f.conns[i]? = some c) : (f.setConn i c').conns[i]? = some c' := by
  unfold SState.setConn
  simp only [List.getElem?_set]
  rw [if_pos trivial, if_pos (List.getElem?_eq_some_iff.1 h).1]

/-- Nothing is left to send: the decoding is finished. -/
theorem normalise {t : Transport} (n : Nat) {f : SState} {i : Nat} {c : SConn} {k : Conn} (hal : f.crashed = false) (hc : f.conns[i]? = some c)
    (hrc : RC t c k) (hd : ¬ Doomed t c) :
    ∃ es2 c', srun t n f es2 = some (f.setConn i c') ∧ BC t c' k ∧ ∀ j, sreadsOf j es2 = [] := by
  have triv : (c.work = none ∨ c.errPending = true ∨ k.pending ≠ []) →
      ∃ es2 c', srun t n f es2 = some (f.setConn i c') ∧ BC t c' k ∧ ∀ j, sreadsOf j es2 = [] := fun h =>
    ⟨[], c, by rw [setConn_same hc]; rfl, ⟨hrc, hd, h⟩, fun _ => rfl⟩
  cases hw : c.work with
  | none => exact triv (Or.inl hw)
  | some w =>
    cases he : c.errPending with
    | true => exact triv (Or.inr (Or.inl he))
    | false =>
      by_cases hp : k.pending = []
      · have hrc0 := hrc
        obtain ⟨r1, r2, r3⟩ := hrc
        rw [hw] at r3
        obtain ⟨hrun, hcap, h5⟩ := r3
        rcases h5 with ⟨d', ds, h5, h6, h7, h8⟩ | ⟨h5, _⟩
        · rw [hp] at h6
          have hse : w.sending = none := by
            cases hx : w.sending with
            | none => rfl
            | some d => rw [hx] at h6; simp at h6
          have hds : ds = [] := by
            rw [hse] at h6
            simpa using h6.symm
          subst hds
          cases hpa : parse (some w.data) (some t) w.eof with
          | panic => rw [restOf_now hse hpa] at h5; cases h5
          | hang => exact absurd hpa (C09_never_hangs (some w.data) (some t) w.eof hcap)
          | ret x =>
            obtain ⟨m, rest, pe⟩ := x
            cases rest with
            | some r =>
              rw [restOf_more ⟨0, m, pe⟩ hse hcap hpa] at h5
              cases hx : restOf t { w with data := r, sending := some ⟨0, m, pe⟩ } with
              | panic => rw [hx] at h5; cases h5
              | hang => rw [hx] at h5; cases h5
              | ret y => rw [hx] at h5; simp [Out.bind] at h5
            | none =>
              have hr := restOf_stop hse hpa
              refine ⟨[.decode i], c.finish w, ?_, ⟨hrc0.finish hw hr hse, doomed_none rfl, Or.inl rfl⟩, fun _ => rfl⟩
              have : sstep t n f (.decode i) = some (f.setConn i (c.finish w)) := by
                unfold sstep
                rw [if_neg (by rw [hal]; simp)]
                simp only [hc, hw]
                rw [if_neg (by rw [he, hse]; simp), hpa]
              simp [srun, this]
        · exact absurd ((doomed_iff hw hcap).2 h5) hd
      · exact triv (Or.inr (Or.inr hp))

/-- Something is left to send: the pair is decoded. -/
theorem predecode {t : Transport} (n : Nat) {f : SState} {i : Nat} {c : SConn} {k : Conn} {d : Tok.Delivered} {r : List Tok.Delivered}
    (hal : f.crashed = false) (hc : f.conns[i]? = some c)
    (hrc : RC t c k) (hd : ¬ Doomed t c) (he : c.errPending = false) (hp : k.pending = d :: r) :
    ∃ es2 c' w, srun t n f es2 = some (f.setConn i c') ∧ RC t c' k ∧ ¬ Doomed t c' ∧ c'.work = some w ∧ w.sending = some d ∧
      c'.errPending = false ∧ ∀ j, sreadsOf j es2 = [] := by
  have hrc0 := hrc
  obtain ⟨r1, r2, r3⟩ := hrc
  cases hw : c.work with
  | none => rw [hw] at r3; rw [r3.2.1] at hp; cases hp
  | some w =>
    rw [hw] at r3
    obtain ⟨hrun, hcap, h5⟩ := r3
    rcases h5 with ⟨d', ds, h5, h6, h7, h8⟩ | ⟨h5, _⟩
    · cases hse : w.sending with
      | some d1 =>
        rw [hse, hp] at h6
        simp only [Option.toList_some, List.singleton_append, List.cons.injEq] at h6
        exact ⟨[], c, w, by rw [setConn_same hc]; rfl, hrc0, hd, hw, by rw [hse, h6.1], he, fun _ => rfl⟩
      | none =>
        cases hpa : parse (some w.data) (some t) w.eof with
        | panic => rw [restOf_now hse hpa] at h5; cases h5
        | hang => exact absurd hpa (C09_never_hangs (some w.data) (some t) w.eof hcap)
        | ret x =>
          obtain ⟨m, rest, pe⟩ := x
          cases rest with
          | none =>
            rw [restOf_stop hse hpa] at h5
            cases h5
            rw [hse, hp] at h6
            simp at h6
          | some rr =>
            obtain ⟨g1, g2⟩ := hrc0.more hw hse hpa
            have hdd : (⟨c.tok.old.length, m, pe⟩ : Tok.Delivered) = d := by
              have g := g1.2.2
              simp only at g
              rcases g.2.2 with ⟨d2, ds2, _, g6, _⟩ | ⟨g5, _⟩
              · rw [hp] at g6
                simp only [Option.toList_some, List.singleton_append, List.cons.injEq] at g6
                exact g6.1.symm
              · exact absurd (g2.1 ((doomed_iff (w := { w with data := rr, sending := some ⟨c.tok.old.length, m, pe⟩ }) rfl g.2.1).2 g5)) hd
            refine ⟨[.decode i], _, _, ?_, g1, fun hx => hd (g2.1 hx), rfl, ?_, he, fun _ => rfl⟩
            · have : sstep t n f (.decode i) = some (f.setConn i { c with
                  tok := { c.tok with out := c.tok.out ++ [(⟨c.tok.old.length, m, pe⟩ : Tok.Delivered)] },
                  work := some { w with data := rr, sending := some ⟨c.tok.old.length, m, pe⟩ } }) := by
                unfold sstep
                rw [if_neg (by rw [hal]; simp)]
                simp only [hc, hw]
                rw [if_neg (by rw [he, hse]; simp), hpa]
              simp only [srun, this, Option.bind_some]
            · simp only [hdd]
    · exact absurd ((doomed_iff hw hcap).2 h5) hd

theorem srun_one {t : Transport} {n : Nat} {s s' : SState} {e : SEvent} (h : sstep t n s e = some s') : srun t n s [e] = some s' := by
  simp [srun, h]

theorem srun_trans {t : Transport} {n : Nat} {a b c : SState} {x y : List SEvent} (h1 : srun t n a x = some b) (h2 : srun t n b y = some c) :
    srun t n a (x ++ y) = some c := by
  rw [srun_append, h1]; exact h2

/-- A pair is sent: to the queue, or to `Receive`. -/
theorem back_push {t : Transport} {n : Nat} {f : SState} {i : Nat} {c : SConn} {k : Conn} {d : Tok.Delivered} {r : List Tok.Delivered}
    (hal : f.crashed = false) (hc : f.conns[i]? = some c) (hb : BC t c k) (he : k.errPending = false) (hp : k.pending = d :: r) :
    ∃ es2, (∀ j, sreadsOf j es2 = []) ∧
      (f.pipelineClosed = true → ∃ f', srun t n f es2 = some f' ∧ f'.crashed = true ∧ f'.got = f.got) ∧
      (f.pipelineClosed = false → f.pipeline.length < n → ∃ es3 c', (∀ j, sreadsOf j es3 = []) ∧ BC t c' { k with pending := r } ∧
        srun t n f es3 = some ({ f with pipeline := f.pipeline ++ [(i, d)] }.setConn i c')) ∧
      (f.pipelineClosed = false → f.pipeline.length = 0 → ∃ es3 c', (∀ j, sreadsOf j es3 = []) ∧ BC t c' { k with pending := r } ∧
        srun t n f es3 = some ({ f with got := f.got ++ [(i, d)] }.setConn i c')) := by
  have hce : c.errPending = false := by rw [hb.1.1]; exact he
  obtain ⟨es2, c', w, h1, h2, h3, h4, h5, h6, h7⟩ := predecode n hal hc hb.1 hb.2.1 hce hp
  obtain ⟨data, eof, lenRead, sending⟩ := w
  have h5' : sending = some d := h5
  subst h5'
  have hg := setConn_get (c' := c') hc
  have hal' : (f.setConn i c').crashed = false := hal
  have hsent : ¬ Doomed t (c'.sent ⟨data, eof, lenRead, some d⟩) ∧ RC t (c'.sent ⟨data, eof, lenRead, some d⟩) { k with pending := r } := by
    rcases h2.sent h4 rfl with ⟨_, g1, r', g2, g3⟩ | ⟨g1, _⟩
    · rw [hp] at g2
      cases g2
      exact ⟨g1, g3⟩
    · exact absurd g1 h3
  refine ⟨es2 ++ [.std (.sendMsg i)], ?_, ?_, ?_, ?_⟩
  · intro j; rw [sreadsOf_append, h7]; rfl
  · intro hcl
    refine ⟨{ f.setConn i c' with crashed := true }, srun_trans h1 (srun_one ?_), rfl, rfl⟩
    unfold sstep
    rw [if_neg (by rw [hal']; simp)]
    simp only [hg, h4]
    rw [if_neg (by rw [h6]; simp), if_pos (show (f.setConn i c').pipelineClosed = true from hcl)]
  · intro hcl hl
    have hs : sstep t n (f.setConn i c') (.std (.sendMsg i)) =
        some ({ f.setConn i c' with pipeline := f.pipeline ++ [(i, d)] }.setConn i (c'.sent ⟨data, eof, lenRead, some d⟩)) := by
      unfold sstep
      rw [if_neg (by rw [hal']; simp)]
      simp only [hg, h4]
      rw [if_neg (by rw [h6]; simp), if_neg (show ¬ (f.setConn i c').pipelineClosed = true by rw [show (f.setConn i c').pipelineClosed = false from hcl]; simp),
        if_pos (show (f.setConn i c').pipeline.length < n from hl)]
      rfl
    have hg2 : ({ f.setConn i c' with pipeline := f.pipeline ++ [(i, d)] }.setConn i (c'.sent ⟨data, eof, lenRead, some d⟩)).conns[i]? =
        some (c'.sent ⟨data, eof, lenRead, some d⟩) := setConn_get (f := { f.setConn i c' with pipeline := f.pipeline ++ [(i, d)] }) hg
    obtain ⟨es3, c3, g1, g2, g3⟩ := normalise n (f := { f.setConn i c' with pipeline := f.pipeline ++ [(i, d)] }.setConn i
      (c'.sent ⟨data, eof, lenRead, some d⟩)) hal hg2 hsent.2 hsent.1
    refine ⟨es2 ++ ([.std (.sendMsg i)] ++ es3), c3, ?_, g2, ?_⟩
    · intro j; rw [sreadsOf_append, sreadsOf_append, h7, g3]; rfl
    · rw [srun_trans h1 (srun_trans (srun_one hs) g1), setConn_twice]
      simp [SState.setConn]
  · intro hcl hl
    have hs : sstep t n (f.setConn i c') (.std (.handoff i)) =
        some ({ f.setConn i c' with got := f.got ++ [(i, d)] }.setConn i (c'.sent ⟨data, eof, lenRead, some d⟩)) := by
      unfold sstep
      rw [if_neg (by rw [hal']; simp)]
      simp only [hg, h4]
      rw [if_neg (by
        rintro (hx | hx | hx)
        · rw [h6] at hx; cases hx
        · rw [show (f.setConn i c').pipelineClosed = false from hcl] at hx; cases hx
        · exact hx hl)]
      rfl
    have hg2 : ({ f.setConn i c' with got := f.got ++ [(i, d)] }.setConn i (c'.sent ⟨data, eof, lenRead, some d⟩)).conns[i]? =
        some (c'.sent ⟨data, eof, lenRead, some d⟩) := setConn_get (f := { f.setConn i c' with got := f.got ++ [(i, d)] }) hg
    obtain ⟨es3, c3, g1, g2, g3⟩ := normalise n (f := { f.setConn i c' with got := f.got ++ [(i, d)] }.setConn i
      (c'.sent ⟨data, eof, lenRead, some d⟩)) hal hg2 hsent.2 hsent.1
    refine ⟨es2 ++ ([.std (.handoff i)] ++ es3), c3, ?_, g2, ?_⟩
    · intro j; rw [sreadsOf_append, sreadsOf_append, h7, g3]; rfl
    · rw [srun_trans h1 (srun_trans (srun_one hs) g1), setConn_twice]
      simp [SState.setConn]

/-- The queue can be emptied. -/
theorem drain (t : Transport) (n : Nat) : ∀ (l : List (Nat × Tok.Delivered)) (f : SState), f.crashed = false → f.pipeline = l →
    ∃ es2, srun t n f es2 = some { f with pipeline := [], got := f.got ++ l } := by
  intro l
  induction l with
  | nil =>
    intro f _ hp
    refine ⟨[], ?_⟩
    simp only [srun, List.append_nil]
    rw [← hp]
  | cons x l ih =>
    intro f hal hp
    have hs : sstep t n f (.std .recv) = some { f with pipeline := l, got := f.got ++ [x] } := by
      unfold sstep
      rw [if_neg (by rw [hal]; simp)]
      simp only [hp]
    obtain ⟨es2, h⟩ := ih { f with pipeline := l, got := f.got ++ [x] } hal rfl
    refine ⟨[.std .recv] ++ es2, ?_⟩
    rw [srun_trans (srun_one hs) h]
    simp

/-- A doomed connection can crash the program, whatever the queue. -/
theorem doom_crash {t : Transport} {n : Nat} {eof : Bool} {data : Slice} (hw : WillPanic t eof data) :
    ∀ (f : SState) (i : Nat) (c : SConn) (w : Work), data.cap < 2 ^ 63 → f.crashed = false → f.conns[i]? = some c → c.work = some w → w.data = data →
      w.eof = eof → w.sending = none → c.errPending = false →
      ∃ es2 f', srun t n f es2 = some f' ∧ f'.crashed = true ∧ f.got <+: f'.got := by
  induction hw with
  | @now data hp =>
    intro f i c w _ hal hc hw h1 h2 h3 h4
    refine ⟨[.decode i], { f with crashed := true }, srun_one ?_, rfl, List.prefix_rfl⟩
    unfold sstep
    rw [if_neg (by rw [hal]; simp)]
    simp only [hc, hw]
    rw [if_neg (by rw [h4, h3]; simp), h1, h2, hp]
  | @later data rest m pe hp h0 _ ih =>
    intro f i c w hcap hal hc hw h1 h2 h3 h4
    have hcap' : rest.cap < 2 ^ 63 := by
      obtain ⟨g1, ⟨pre, hne, g2⟩, _⟩ := parse_rest hcap hp
      simp only [Slice.cap, g1, g2, List.length_append] at hcap ⊢; omega
    let d : Tok.Delivered := ⟨c.tok.old.length, m, pe⟩
    let c1 : SConn := { c with tok := { c.tok with out := c.tok.out ++ [d] }, work := some { w with data := rest, sending := some d } }
    have hs1 : sstep t n f (.decode i) = some (f.setConn i c1) := by
      unfold sstep
      rw [if_neg (by rw [hal]; simp)]
      simp only [hc, hw]
      rw [if_neg (by rw [h4, h3]; simp), show parse (some w.data) (some t) w.eof = .ret (m, some rest, pe) by rw [h1, h2]; exact hp]
    have hg1 := setConn_get (c' := c1) hc
    have hal1 : (f.setConn i c1).crashed = false := hal
    cases hcl : f.pipelineClosed with
    | true =>
      refine ⟨[.decode i] ++ [.std (.sendMsg i)], { f.setConn i c1 with crashed := true }, srun_trans (srun_one hs1) (srun_one ?_), rfl, List.prefix_rfl⟩
      unfold sstep
      rw [if_neg (by rw [hal1]; simp)]
      simp only [hg1, c1]
      rw [if_neg (by rw [h4]; simp), if_pos (show (f.setConn i _).pipelineClosed = true from hcl)]
    | false =>
      obtain ⟨es3, hd⟩ := drain t n f.pipeline (f.setConn i c1) hal1 rfl
      let f2 : SState := { f.setConn i c1 with pipeline := [], got := f.got ++ f.pipeline }
      have hd : srun t n (f.setConn i c1) es3 = some f2 := hd
      have hg2 : f2.conns[i]? = some c1 := hg1
      let w1 : Work := ⟨rest, w.eof, w.lenRead, some d⟩
      have hsent : c1.sent w1 = { c1 with work := some { w1 with sending := none } } := by
        unfold SConn.sent; rw [if_neg h0]
      have hs2 : sstep t n f2 (.std (.handoff i)) = some ({ f2 with got := f2.got ++ [(i, d)] }.setConn i (c1.sent w1)) := by
        unfold sstep
        rw [if_neg (by rw [show f2.crashed = false from hal]; simp)]
        simp only [hg2, c1]
        rw [if_neg (by
          rintro (hx | hx | hx)
          · rw [h4] at hx; cases hx
          · rw [show f2.pipelineClosed = false from hcl] at hx; cases hx
          · exact hx rfl)]
      obtain ⟨es4, f', h5, h6, h7⟩ := ih ({ f2 with got := f2.got ++ [(i, d)] }.setConn i (c1.sent w1)) i (c1.sent w1) { w1 with sending := none }
        hcap' hal (setConn_get (f := { f2 with got := f2.got ++ [(i, d)] }) hg2) (by rw [hsent]) rfl h2 rfl (by rw [hsent]; exact h4)
      refine ⟨_, f', srun_trans (srun_one hs1) (srun_trans hd (srun_trans (srun_one hs2) h5)), h6, List.IsPrefix.trans ?_ h7⟩
      exact ⟨f.pipeline ++ [(i, d)], by simp [SState.setConn, f2]⟩

/-- What one event does: the simulation goes on, or both programs crash. -/
def BackNext (t : Transport) (n : Nat) (es : List Event) (e : Event) (s' : State) (es' : List SEvent) (f : SState) : Prop :=
  (∃ es2 f', Back t n (es ++ [e]) s' (es' ++ es2) f') ∨
  (s'.crashed = true ∧ ∃ es2 f', srun t n f es2 = some f' ∧ f'.crashed = true ∧ f.got <+: f'.got)

theorem back_read {t : Transport} {n : Nat} {es : List Event} {s s' : State} {es' : List SEvent} {f : SState} {i : Nat} {r : Tok.Read}
    (h : Back t n es s es' f) (hst : step t n s (.read i r) = some s') : BackNext t n es (.read i r) s' es' f := by
  have hst0 := hst
  unfold step at hst
  rw [if_neg (by rw [h.alive.2]; simp)] at hst
  simp only at hst
  cases hk : s.conns[i]? with
  | none => rw [hk] at hst; cases hst
  | some k =>
    rw [hk] at hst
    simp only at hst
    obtain ⟨c, hc, hrc, hnd, hnorm⟩ := h.get hk
    split at hst
    · rename_i hg
      obtain ⟨g1, g2, g3, g4⟩ := hg
      have hke : k.errPending = false := by simpa using g3
      have hce : c.errPending = false := by rw [hrc.1]; exact hke
      have hkp : k.pending = [] := List.length_eq_zero_iff.1 g2
      have hw : c.work = none := by
        rcases hnorm with h1 | h1 | h1
        · exact h1
        · rw [hce] at h1; cases h1
        · exact absurd hkp h1
      have h3 := hrc.2.2
      rw [hw] at h3
      obtain ⟨htok, _, hkr⟩ := h3
      have hcr : c.running = true := by rw [← hkr]; exact g1
      have hf : r.Fits c.tok := by rw [← htok]; exact g4
      have hinv := (inv_run h.run h.alive.2).conn i k hk
      obtain ⟨c', hl, hcase⟩ := RC.load hrc hw hcr hf (by rw [← htok]; exact hinv.mem)
      have hs1 : sstep t n f (.std (.read i r)) = some (f.setConn i c') := by
        unfold sstep
        rw [if_neg (by rw [h.alive.1]; simp)]
        simp only [hc]
        rw [if_pos ⟨hcr, by rw [hw]; rfl, by rw [hce]; simp, hf⟩, hl]
      have hg1 := setConn_get (c' := c') hc
      rcases hcase with ⟨hd, goOn, tok, hts, hrc'⟩ | ⟨hd, r', tok, h0, h1, h2, hpan, h3, h4, h5, h6, hrc'⟩
      · rw [hts] at hst
        simp only [Option.some.injEq] at hst
        subst hst
        left
        obtain ⟨es2, c2, a1, a2, a3⟩ := normalise n (f := f.setConn i c') h.alive.1 hg1 hrc' hd
        rw [setConn_twice] at a1
        refine ⟨[.std (.read i r)] ++ es2, f.setConn i c2, ?_⟩
        refine h.next hst0 (srun_trans (srun_one hs1) a1) h.alive h.pc h.closed h.errs h.ended h.nils h.pipe h.got ?_ (h.set a2) ?_
        · simp [SState.setConn, State.setConn, h.len]
        · intro j
          rw [sreadsOf_append, a3, List.append_nil]
          by_cases hj : i = j <;> simp [sreadsOf, readsOf, hj]
      · rw [hpan] at hst
        simp only [Option.some.injEq] at hst
        subst hst
        right
        refine ⟨rfl, ?_⟩
        -- the error of the read is sent first
        have key : ∃ es3 f3 c3 w3, srun t n (f.setConn i c') es3 = some f3 ∧ f3.crashed = false ∧ f3.got = f.got ∧ f3.conns[i]? = some c3 ∧
            c3.errPending = false ∧ c3.work = some w3 ∧ c'.work = some w3 ∧ w3.sending = none := by
          have hwork : ∃ w3, c'.work = some w3 ∧ w3.sending = none := by
            obtain ⟨w, hw', _, _⟩ := hd
            refine ⟨w, hw', ?_⟩
            unfold SConn.load at hl
            simp only at hl
            split at hl
            · cases hl; rw [hw] at hw'; cases hw'
            · split at hl
              · cases hl; rw [hw] at hw'; cases hw'
              · cases hx : (Slice.exact (List.drop c.tok.off (overwrite c.tok.arr (c.tok.off + c.tok.done) (r.data ++ r.scratch)))).sub 0
                    ((r.data.length + c.tok.done : Nat) : Int) with
                | panic => rw [hx] at hl; cases hl
                | hang => rw [hx] at hl; cases hl
                | ret y => rw [hx] at hl; cases hl; cases hw'; rfl
          obtain ⟨w3, hw3, hs3⟩ := hwork
          cases hep : c'.errPending with
          | false => exact ⟨[], _, c', w3, rfl, h.alive.1, rfl, hg1, hep, hw3, hw3, hs3⟩
          | true =>
            -- room for it
            have room : ∃ es4 e4, srun t n (f.setConn i c') es4 = some { f.setConn i c' with errs := e4 } ∧ e4 < errCap := by
              by_cases hlt : f.errs < errCap
              · exact ⟨[], f.errs, rfl, hlt⟩
              · have : ∀ m (g : SState), g.crashed = false → g.errs = m → ∃ es4, srun t n g es4 = some { g with errs := 0 } := by
                  intro m
                  induction m with
                  | zero => intro g _ hm; exact ⟨[], by simp [srun, ← hm]⟩
                  | succ m ih =>
                    intro g hga hm
                    have hs : sstep t n g (.std .recvErr) = some { g with errs := g.errs - 1 } := by
                      unfold sstep
                      rw [if_neg (by rw [hga]; simp)]
                      simp only
                      rw [if_pos (by omega)]
                    obtain ⟨es4, h4⟩ := ih { g with errs := g.errs - 1 } hga (by simp only; omega)
                    exact ⟨_, srun_trans (srun_one hs) h4⟩
                obtain ⟨es4, h4⟩ := this f.errs (f.setConn i c') h.alive.1 rfl
                exact ⟨es4, 0, h4, by decide⟩
            obtain ⟨es4, e4, hr4, hlt⟩ := room
            have hs : sstep t n { f.setConn i c' with errs := e4 } (.std (.sendErr i)) =
                some ({ f.setConn i c' with errs := e4 + 1 }.setConn i { c' with errPending := false }) := by
              unfold sstep
              rw [if_neg (by rw [show ({ f.setConn i c' with errs := e4 } : SState).crashed = false from h.alive.1]; simp)]
              simp only [hg1]
              rw [if_pos ⟨hep, hlt⟩]
            refine ⟨_, _, _, w3, srun_trans hr4 (srun_one hs), h.alive.1, rfl,
              setConn_get (f := { f.setConn i c' with errs := e4 + 1 }) hg1, rfl, hw3, hw3, hs3⟩
        obtain ⟨es3, f3, c3, w3, b1, b2, b3, b4, b5, b6, b7, b8⟩ := key
        obtain ⟨w, hw', hor, hwp⟩ := hd
        rw [b7] at hw'
        cases hw'
        have hcap : w3.data.cap < 2 ^ 63 := by
          have := hrc'.2.2
          rw [b7] at this
          exact this.2.1
        obtain ⟨es5, f5, d1, d2, d3⟩ := doom_crash (n := n) hwp f3 i c3 w3 hcap b2 b4 b6 rfl rfl b8 b5
        exact ⟨_, f5, srun_trans (srun_one hs1) (srun_trans b1 d1), d2, by rw [← b3]; exact d3⟩
    · cases hst

theorem back_step {t : Transport} {n : Nat} {es : List Event} {e : Event} {s s' : State} {es' : List SEvent} {f : SState}
    (h : Back t n es s es' f) (hst : step t n s e = some s') : BackNext t n es e s' es' f := by
  cases e with
  | read i r => exact back_read h hst
  | tau =>
    have hst0 := hst
    unfold step at hst
    rw [if_neg (by rw [h.alive.2]; simp)] at hst
    simp only at hst
    have hpc := h.pc
    have nx : ∀ (f2 : SState), sstep t n f (.std .tau) = some f2 → f2.crashed = false ∧ s'.crashed = false → f2.pc = s'.pc →
        f2.pipelineClosed = s'.pipelineClosed → f2.errs = s'.errs → f2.ended = s'.ended → f2.nilConns = s'.nilConns → f2.pipeline = s'.pipeline →
        f2.got = s'.got → f2.conns = f.conns → s'.conns = s.conns → BackNext t n es .tau s' es' f := by
      intro f2 a1 a2 a3 a4 a5 a6 a7 a8 a9 a10 a11
      exact Or.inl ⟨_, f2, h.next hst0 (srun_one a1) a2 a3 a4 a5 a6 a7 a8 a9 (by rw [a10, a11]; exact h.len) (by rw [a10, a11]; exact h.conn)
        (fun _ => rfl)⟩
    cases hx : s.pc with
    | select =>
      rw [hx] at hst hpc
      simp only [Option.some.injEq] at hst
      subst hst
      refine nx { f with pc := if f.ended then .closePipe else .accept } ?_ h.alive (by simp [h.ended]) h.closed h.errs h.ended h.nils h.pipe h.got rfl rfl
      unfold sstep; rw [if_neg (by rw [h.alive.1]; simp)]; simp only [hpc]
    | errSend =>
      rw [hx] at hst hpc
      simp only at hst
      split at hst
      · rename_i hlt
        simp only [Option.some.injEq] at hst
        subst hst
        refine nx { f with errs := f.errs + 1, nilConns := f.nilConns + 1, pc := .select } ?_ h.alive rfl h.closed (by simp [h.errs]) h.ended
          (by simp [h.nils]) h.pipe h.got rfl rfl
        unfold sstep; rw [if_neg (by rw [h.alive.1]; simp)]; simp only [hpc]
        rw [if_pos (by rw [h.errs]; exact hlt)]
      · cases hst
    | closePipe =>
      rw [hx] at hst hpc
      simp only [Option.some.injEq] at hst
      subst hst
      refine nx { f with pipelineClosed := true, pc := .closeListener } ?_ h.alive rfl rfl h.errs h.ended h.nils h.pipe h.got rfl rfl
      unfold sstep; rw [if_neg (by rw [h.alive.1]; simp)]; simp only [hpc]
    | closeListener =>
      rw [hx] at hst hpc
      simp only [Option.some.injEq] at hst
      subst hst
      refine nx { f with pc := .done } ?_ h.alive rfl h.closed h.errs h.ended h.nils h.pipe h.got rfl rfl
      unfold sstep; rw [if_neg (by rw [h.alive.1]; simp)]; simp only [hpc]
    | accept => rw [hx] at hst; cases hst
    | done => rw [hx] at hst; cases hst
  | acceptOk =>
    have hst0 := hst
    unfold step at hst
    rw [if_neg (by rw [h.alive.2]; simp)] at hst
    simp only at hst
    split at hst
    · rename_i hpc
      simp only [Option.some.injEq] at hst
      subst hst
      have hs : sstep t n f (.std .acceptOk) = some { f with conns := f.conns ++ [SConn.new], pc := .select } := by
        unfold sstep; rw [if_neg (by rw [h.alive.1]; simp)]; simp only
        rw [if_pos (by rw [h.pc]; exact hpc)]
      refine Or.inl ⟨_, _, h.next hst0 (srun_one hs) h.alive rfl h.closed h.errs h.ended h.nils h.pipe h.got (by simp [h.len]) ?_ (fun _ => rfl)⟩
      intro i c k hc hk
      simp only at hc hk
      rcases Nat.lt_or_ge i f.conns.length with hl | hl
      · rw [List.getElem?_append_left hl] at hc
        rw [List.getElem?_append_left (by rw [← h.len]; exact hl)] at hk
        exact h.conn i c k hc hk
      · rw [List.getElem?_append_right hl] at hc
        rw [List.getElem?_append_right (by rw [← h.len]; exact hl), ← h.len] at hk
        cases hx : i - f.conns.length with
        | zero =>
          rw [hx] at hc hk
          cases hc; cases hk
          exact ⟨⟨rfl, rfl, rfl, rfl, rfl⟩, doomed_none rfl, Or.inl rfl⟩
        | succ m => rw [hx] at hc; simp at hc
    · cases hst
  | acceptErr =>
    have hst0 := hst
    unfold step at hst
    rw [if_neg (by rw [h.alive.2]; simp)] at hst
    simp only at hst
    split at hst
    · rename_i hpc
      simp only [Option.some.injEq] at hst
      subst hst
      have hs : sstep t n f (.std .acceptErr) = some { f with pc := .errSend } := by
        unfold sstep; rw [if_neg (by rw [h.alive.1]; simp)]; simp only
        rw [if_pos (by rw [h.pc]; exact hpc)]
      exact Or.inl ⟨_, _, h.next hst0 (srun_one hs) h.alive rfl h.closed h.errs h.ended h.nils h.pipe h.got h.len h.conn (fun _ => rfl)⟩
    · cases hst
  | nilStart =>
    unfold step at hst
    rw [if_neg (by rw [h.alive.2]; simp)] at hst
    simp only at hst
    split at hst
    · rename_i hn
      simp only [Option.some.injEq] at hst
      subst hst
      refine Or.inr ⟨rfl, [.std .nilStart], { f with crashed := true }, srun_one ?_, rfl, List.prefix_rfl⟩
      unfold sstep; rw [if_neg (by rw [h.alive.1]; simp)]; simp only
      rw [if_pos (by rw [h.nils]; exact hn)]
    · cases hst
  | sendErr i =>
    have hst0 := hst
    unfold step at hst
    rw [if_neg (by rw [h.alive.2]; simp)] at hst
    simp only at hst
    cases hk : s.conns[i]? with
    | none => rw [hk] at hst; cases hst
    | some k =>
      rw [hk] at hst
      simp only at hst
      split at hst
      · rename_i hg
        simp only [Option.some.injEq] at hst
        subst hst
        obtain ⟨c, hc, hrc, hnd, hnorm⟩ := h.get hk
        have hs : sstep t n f (.std (.sendErr i)) = some ({ f with errs := f.errs + 1 }.setConn i { c with errPending := false }) := by
          unfold sstep; rw [if_neg (by rw [h.alive.1]; simp)]; simp only [hc]
          rw [if_pos ⟨by rw [hrc.1]; exact hg.1, by rw [h.errs]; exact hg.2⟩]
        obtain ⟨es2, c2, a1, a2, a3⟩ := normalise n (f := { f with errs := f.errs + 1 }.setConn i { c with errPending := false })
          (c := { c with errPending := false }) (k := { k with errPending := false }) h.alive.1
          (setConn_get (f := { f with errs := f.errs + 1 }) hc) ⟨rfl, hrc.2.1, hrc.2.2⟩ hnd
        rw [setConn_twice] at a1
        refine Or.inl ⟨[.std (.sendErr i)] ++ es2, _, h.next hst0 (srun_trans (srun_one hs) a1) h.alive h.pc h.closed ?_ h.ended h.nils h.pipe h.got ?_ (h.set a2) ?_⟩
        · simp [SState.setConn, State.setConn, h.errs]
        · simp [SState.setConn, State.setConn, h.len]
        · intro j; rw [sreadsOf_append, a3]; rfl
      · cases hst
  | sendMsg i =>
    have hst0 := hst
    unfold step at hst
    rw [if_neg (by rw [h.alive.2]; simp)] at hst
    simp only at hst
    cases hk : s.conns[i]? with
    | none => rw [hk] at hst; cases hst
    | some k =>
      rw [hk] at hst
      simp only at hst
      cases hp : k.pending with
      | nil => rw [hp] at hst; cases hst
      | cons d r =>
        rw [hp] at hst
        simp only at hst
        split at hst
        · cases hst
        rename_i he
        have he : k.errPending = false := by simpa using he
        obtain ⟨c, hc, hb⟩ := h.get hk
        obtain ⟨es2, p1, p2, p3, p4⟩ := back_push (n := n) h.alive.1 hc hb he hp
        split at hst
        · rename_i hcl
          simp only [Option.some.injEq] at hst
          subst hst
          obtain ⟨f', q1, q2, q3⟩ := p2 (by rw [h.closed]; exact hcl)
          exact Or.inr ⟨rfl, es2, f', q1, q2, by rw [q3]; exact List.prefix_rfl⟩
        · rename_i hcl
          split at hst
          · rename_i hlen
            simp only [Option.some.injEq] at hst
            subst hst
            obtain ⟨es3, c', q1, q2, q3⟩ := p3 (by rw [h.closed]; simpa using hcl) (by rw [h.pipe]; exact hlen)
            refine Or.inl ⟨es3, _, h.next hst0 q3 h.alive h.pc h.closed h.errs h.ended h.nils ?_ h.got ?_ (h.set q2) q1⟩
            · simp [SState.setConn, State.setConn, h.pipe]
            · simp [SState.setConn, State.setConn, h.len]
          · cases hst
  | close i =>
    have hst0 := hst
    unfold step at hst
    rw [if_neg (by rw [h.alive.2]; simp)] at hst
    simp only at hst
    cases hk : s.conns[i]? with
    | none => rw [hk] at hst; cases hst
    | some k =>
      rw [hk] at hst
      simp only at hst
      split at hst
      · rename_i hg
        obtain ⟨g1, g2, g3, g4⟩ := hg
        simp only [Option.some.injEq] at hst
        subst hst
        obtain ⟨c, hc, hrc, hnd, hnorm⟩ := h.get hk
        have hke : k.errPending = false := by simpa using g3
        have hw : c.work = none := by
          rcases hnorm with h1 | h1 | h1
          · exact h1
          · rw [hrc.1, hke] at h1; cases h1
          · exact absurd (List.length_eq_zero_iff.1 g2) h1
        obtain ⟨r1, r2, r3⟩ := hrc
        have r3' := r3
        rw [hw] at r3'
        have hs : sstep t n f (.std (.close i)) = some (f.setConn i { c with closed := true }) := by
          unfold sstep; rw [if_neg (by rw [h.alive.1]; simp)]; simp only [hc]
          rw [if_pos ⟨by rw [← r3'.2.2]; exact g1, by rw [hw]; rfl, by rw [r1]; exact g3, by rw [r2]; exact g4⟩]
        refine Or.inl ⟨_, _, h.next hst0 (srun_one hs) h.alive h.pc h.closed h.errs h.ended h.nils h.pipe h.got ?_
          (h.set ⟨⟨r1, rfl, r3⟩, hnd, Or.inl hw⟩) (fun _ => rfl)⟩
        simp [SState.setConn, State.setConn, h.len]
      · cases hst
  | recv =>
    have hst0 := hst
    unfold step at hst
    rw [if_neg (by rw [h.alive.2]; simp)] at hst
    simp only at hst
    split at hst
    · cases hst
    · rename_i x r hp
      simp only [Option.some.injEq] at hst
      subst hst
      have hs : sstep t n f (.std .recv) = some { f with pipeline := r, got := f.got ++ [x] } := by
        unfold sstep; rw [if_neg (by rw [h.alive.1]; simp)]; simp only [h.pipe, hp]
      exact Or.inl ⟨_, _, h.next hst0 (srun_one hs) h.alive h.pc h.closed h.errs h.ended h.nils rfl (by simp [h.got]) h.len h.conn (fun _ => rfl)⟩
  | handoff i =>
    have hst0 := hst
    unfold step at hst
    rw [if_neg (by rw [h.alive.2]; simp)] at hst
    simp only at hst
    cases hk : s.conns[i]? with
    | none => rw [hk] at hst; cases hst
    | some k =>
      rw [hk] at hst
      simp only at hst
      cases hp : k.pending with
      | nil => rw [hp] at hst; cases hst
      | cons d r =>
        rw [hp] at hst
        simp only at hst
        split at hst
        · cases hst
        rename_i hg
        simp only [Option.some.injEq] at hst
        subst hst
        have he : k.errPending = false := by cases hx : k.errPending with
          | false => rfl
          | true => exact absurd (Or.inl hx) hg
        have hcl : s.pipelineClosed = false := by cases hx : s.pipelineClosed with
          | false => rfl
          | true => exact absurd (Or.inr (Or.inl hx)) hg
        have hlen : s.pipeline.length = 0 := by
          by_cases hx : s.pipeline.length = 0
          · exact hx
          · exact absurd (Or.inr (Or.inr hx)) hg
        obtain ⟨c, hc, hb⟩ := h.get hk
        obtain ⟨es2, p1, p2, p3, p4⟩ := back_push (n := n) h.alive.1 hc hb he hp
        obtain ⟨es3, c', q1, q2, q3⟩ := p4 (by rw [h.closed]; exact hcl) (by rw [h.pipe]; exact hlen)
        refine Or.inl ⟨es3, _, h.next hst0 q3 h.alive h.pc h.closed h.errs h.ended h.nils h.pipe ?_ ?_ (h.set q2) q1⟩
        · simp [SState.setConn, State.setConn, h.got]
        · simp [SState.setConn, State.setConn, h.len]
  | recvClosed =>
    have hst0 := hst
    unfold step at hst
    rw [if_neg (by rw [h.alive.2]; simp)] at hst
    simp only at hst
    split at hst
    · rename_i hg
      simp only [Option.some.injEq] at hst
      subst hst
      have hs : sstep t n f (.std .recvClosed) = some f := by
        unfold sstep; rw [if_neg (by rw [h.alive.1]; simp)]; simp only
        rw [if_pos ⟨by rw [h.closed]; exact hg.1, by rw [h.pipe]; exact hg.2⟩]
      exact Or.inl ⟨_, _, h.next hst0 (srun_one hs) h.alive h.pc h.closed h.errs h.ended h.nils h.pipe h.got h.len h.conn (fun _ => rfl)⟩
    · cases hst
  | endCall =>
    have hst0 := hst
    unfold step at hst
    rw [if_neg (by rw [h.alive.2]; simp)] at hst
    simp only at hst
    split at hst
    · rename_i he
      simp only [Option.some.injEq] at hst
      subst hst
      refine Or.inr ⟨rfl, [.std .endCall], { f with crashed := true }, srun_one ?_, rfl, List.prefix_rfl⟩
      unfold sstep; rw [if_neg (by rw [h.alive.1]; simp)]; simp only
      rw [if_pos (by rw [h.ended]; exact he)]
    · rename_i he
      simp only [Option.some.injEq] at hst
      subst hst
      have hs : sstep t n f (.std .endCall) = some { f with ended := true } := by
        unfold sstep; rw [if_neg (by rw [h.alive.1]; simp)]; simp only
        rw [if_neg (by rw [h.ended]; exact he)]
      exact Or.inl ⟨_, _, h.next hst0 (srun_one hs) h.alive h.pc h.closed h.errs rfl h.nils h.pipe h.got h.len h.conn (fun _ => rfl)⟩
  | recvErr =>
    have hst0 := hst
    unfold step at hst
    rw [if_neg (by rw [h.alive.2]; simp)] at hst
    simp only at hst
    split at hst
    · rename_i he
      simp only [Option.some.injEq] at hst
      subst hst
      have hs : sstep t n f (.std .recvErr) = some { f with errs := f.errs - 1 } := by
        unfold sstep; rw [if_neg (by rw [h.alive.1]; simp)]; simp only
        rw [if_pos (by rw [h.errs]; exact he)]
      exact Or.inl ⟨_, _, h.next hst0 (srun_one hs) h.alive h.pc h.closed (by simp [h.errs]) h.ended h.nils h.pipe h.got h.len h.conn (fun _ => rfl)⟩
    · cases hst

theorem back_init (t : Transport) (n : Nat) : Back t n [] init [] sinit where
  run := rfl
  srun := rfl
  alive := ⟨rfl, rfl⟩
  pc := rfl
  closed := rfl
  errs := rfl
  ended := rfl
  nils := rfl
  pipe := rfl
  got := rfl
  len := rfl
  conn := by intro i c k hc; simp [sinit] at hc
  reads := fun _ => rfl

theorem step_crash_got {t : Transport} {n : Nat} {s s' : State} {e : Event} (h : step t n s e = some s') (hc : s'.crashed = true) :
    s'.got = s.got := by
  have hnc := step_not_crashed h
  unfold step at h
  rw [if_neg (by rw [hnc]; simp)] at h
  cases e <;> simp only at h <;> repeat' (split at h)
  all_goals first
    | (cases h; done)
    | (simp only [Option.some.injEq] at h; subst h; first | rfl | (simp [State.setConn, hnc] at hc; done))

theorem back_run {t : Transport} {n : Nat} {es : List Event} {s : State} (h : run t n init es = some s) :
    (s.crashed = false ∧ ∃ es' f, Back t n es s es' f) ∨
    (s.crashed = true ∧ ∃ es' f, srun t n sinit es' = some f ∧ f.crashed = true ∧ s.got <+: f.got) := by
  refine run_induction (P := fun es s => (s.crashed = false ∧ ∃ es' f, Back t n es s es' f) ∨
    (s.crashed = true ∧ ∃ es' f, srun t n sinit es' = some f ∧ f.crashed = true ∧ s.got <+: f.got)) (Or.inl ⟨rfl, _, _, back_init t n⟩) ?_ h
  intro es e s s' _ ih hst
  have hnc := step_not_crashed hst
  rcases ih with ⟨_, es', f, hB⟩ | ⟨hx, _⟩
  · rcases back_step hB hst with ⟨es2, f', hB'⟩ | ⟨h1, es2, f', h2, h3, h4⟩
    · exact Or.inl ⟨hB'.alive.2, _, _, hB'⟩
    · refine Or.inr ⟨h1, _, f', srun_trans hB.srun h2, h3, ?_⟩
      rw [step_crash_got hst h1, ← hB.got]; exact h4
  · rw [hnc] at hx; cases hx

end Syslog5424.Recv
