import Verif.Model.Dialed
import Verif.Props.Sender
import Verif.Props.Net
/-! # Properties C70, C71 and C75: senders on a standard stream, with an invalid destination, without automatic flush -/
namespace Syslog5424
open Spec Sender Net

/-- A history of the sender that `Dial` returns. -/
def Spec.DialHistory (d : Dialed) (es : List Event) (s : State) : Prop := History d.transport es s ∧ ∀ e ∈ es, d.can e = true

/-- The connections of the sender are all the file `f`, and one of them was closed: the file is closed. -/
def Spec.FileClosed (d : Dialed) (s : State) (f : ProcessFile) : Prop := d.connector.file = some f ∧ ∃ c ∈ s.conns, c.closed = true

/-! ## C70 -/

theorem closeLast_closes {cs : List Conn} (h : cs ≠ []) : ∃ c ∈ closeLast cs, c.closed = true := by
  induction cs with
  | nil => exact absurd rfl h
  | cons c r ih =>
    cases r with
    | nil => exact ⟨_, List.mem_singleton.mpr rfl, rfl⟩
    | cons c' r' =>
      obtain ⟨x, hx, hc⟩ := ih (by simp)
      exact ⟨x, by simp only [closeLast, List.mem_cons]; exact Or.inr (by simpa [closeLast] using hx), hc⟩

theorem addWrite_open {d : Bytes} {cs : List Conn} (h : ∀ c ∈ cs, c.closed = false) : ∀ c ∈ addWrite d cs, c.closed = false := by
  induction cs with
  | nil => simp [addWrite]
  | cons c r ih =>
    cases r with
    | nil => intro x hx; simp only [addWrite, List.mem_singleton] at hx; subst hx; exact h c (by simp)
    | cons c' r' =>
      intro x hx
      simp only [addWrite, List.mem_cons] at hx
      rcases hx with rfl | hx
      · exact h x (by simp)
      · exact ih (fun c hc => h c (by simp only [List.mem_cons] at hc ⊢; exact Or.inr hc)) x (by simpa [addWrite] using hx)

/-- Past `Close`, a connection is closed. -/
theorem closed_history {t : Transport} {es : List Event} {s : State} (h : History t es s)
    (hpc : s.pc = .closeDone ∨ s.pc = .closeErr ∨ s.pc = .done) : ∃ c ∈ s.conns, c.closed = true := by
  let P : State → Prop := fun s => (∃ fr, Inv fr s) ∧
    ((s.pc = .closeDone ∨ s.pc = .closeErr ∨ s.pc = .done) → ∃ c ∈ s.conns, c.closed = true)
  have : P s := by
    refine run_induct (P := P) h ⟨⟨_, inv_init⟩, by simp [init]⟩ ?_
    rintro a e b - ⟨⟨fr, hi⟩, hp⟩ hab
    refine ⟨⟨_, inv_step hi hab⟩, ?_⟩
    have hout := hi.out
    obtain ⟨hcr, htr⟩ := step_tr hab
    clear hab hi hcr
    cases htr
    case closeOut hpc ho => exact fun _ => closeLast_closes (hout ho)
    case closeDone hpc => exact fun _ => hp (Or.inl hpc)
    case closeErr hpc => exact fun _ => hp (Or.inr (Or.inl hpc))
    case errConn f e hpc he => cases f <;> simp [ret]
    case unlock f hpc => cases f <;> simp [ret]
    all_goals first
      | exact hp
      | simp
  exact this.2 hpc

/-- C70 is violated: whenever `End` has returned on a sender dialed to a standard stream, that stream of the process is
closed. -/
theorem C70_closed_violated (flushDelay : Int) (address : Bytes) (t : Option Transport) (d : Dialed) (f : ProcessFile)
    (haddr : (address = b!"stderr:" ∧ f = .stderr) ∨ (address = b!"stdout:" ∧ f = .stdout))
    (hd : dial flushDelay b!"stdio" address t = .ok d) (es : List Event) (s : State) (h : DialHistory d es s)
    (hend : s.endCompleted = true) : FileClosed d s f := by
  have hdest := (C48_destination _ _ _ _ _ hd).1 rfl
  refine ⟨?_, ?_⟩
  · rcases haddr with ⟨ha, rfl⟩ | ⟨ha, rfl⟩
    · rw [hdest.1.mpr ha]; rfl
    · rw [hdest.2.1.mpr ha]; rfl
  · apply closed_history h.1
    have := (inv_history h.1).comp
    rw [hend] at this
    revert this
    cases s.pc <;> simp

/-- The hypotheses are met: a program sends a message to `stderr:` and ends the sender. -/
example : ∃ d s, dialDefault b!"stdio" b!"stderr:" = .ok d ∧ DialHistory d exEnd s ∧ s.endCompleted = true ∧ s.crashed = false := by
  refine ⟨⟨.stderr, .lfEnded, some 500000000⟩,
    ⟨[], [⟨[b!"<14>1 1970-01-01T00:00:00Z h a 1 - - x\n"], true⟩], true, false, [], true, true, false, false, .closeErr⟩,
    by decide, ⟨by decide +kernel, ?_⟩, rfl, rfl⟩
  intro e he
  simp only [exEnd, List.mem_cons, List.not_mem_nil, or_false] at he
  rcases he with h | h | h | h | h | h | h | h | h | h | h | h | h | h | h <;> subst h <;> rfl

/-- C70 (partial): before `End` is called the stream stays open, whatever fails. -/
theorem C70_open_partial (d : Dialed) (es : List Event) (s : State) (h : DialHistory d es s) (hend : .endCall ∉ es) (f : ProcessFile) :
    ¬ FileClosed d s f := by
  let P : State → Prop := fun s => (∃ fr, Inv fr s) ∧ s.endAsked = false ∧ ∀ c ∈ s.conns, c.closed = false
  have hP : P s := by
    refine run_induct (P := P) h.1 ⟨⟨_, inv_init⟩, rfl, by simp [init]⟩ ?_
    rintro a e b he ⟨⟨fr, hi⟩, hask, hp⟩ hab
    refine ⟨⟨_, inv_step hi hab⟩, ?_⟩
    have hfin := hi.fin
    obtain ⟨hcr, htr⟩ := step_tr hab
    clear hab hi hcr
    cases htr
    case endTwice => exact absurd he hend
    case endOnce => exact absurd he hend
    case closeOut hpc ho =>
      have := hfin (by rw [hpc]; rfl)
      rw [hask] at this; simp at this
    case connOk =>
      refine ⟨hask, ?_⟩
      intro c hc
      simp only [List.mem_append, List.mem_singleton] at hc
      rcases hc with hc | rfl
      · exact hp c hc
      · rfl
    case writeOk => exact ⟨hask, addWrite_open hp⟩
    case writeNobufs => exact ⟨hask, addWrite_open hp⟩
    case writeErr => exact ⟨hask, addWrite_open hp⟩
    all_goals exact ⟨hask, hp⟩
  rintro ⟨_, c, hc, h1⟩
  rw [hP.2.2 c hc] at h1
  simp at h1

/-- Nothing is written when no write accepts a byte. -/
theorem wire_nil {t : Transport} {es : List Event} {s : State} (h : History t es s)
    (hw : ∀ nb r, .write nb r ∈ es → nb = 0) : wire s = [] := by
  let P : State → Prop := fun s => (∃ fr, Inv fr s) ∧ wireOf s.conns = []
  have hP : P s := by
    refine run_induct (P := P) h ⟨⟨_, inv_init⟩, by simp [init, wireOf]⟩ ?_
    rintro a e b he ⟨⟨fr, hi⟩, hp⟩ hab
    refine ⟨⟨_, inv_step hi hab⟩, ?_⟩
    have hneed := hi.need
    have hout := hi.out
    obtain ⟨hcr, htr⟩ := step_tr hab
    clear hab hi hcr
    cases htr
    case closeOut => simp only [wireOf_closeLast]; exact hp
    case connOk => simp only [wireOf_new]; exact hp
    case writeOk f k n x hpc hx =>
      have h0 := hw _ _ he
      simp only [wireOf_addWrite _ _ (hout (hneed (by rw [hpc]; rfl))), hp, List.nil_append]
      exact List.length_eq_zero_iff.mp h0
    case writeNobufs f k n nb x hpc hx hle =>
      have h0 := hw _ _ he
      simp only [wireOf_addWrite _ _ (hout (hneed (by rw [hpc]; rfl))), hp, List.nil_append, h0, List.take_zero]
    case writeErr f k n nb e x hpc hx hle =>
      have h0 := hw _ _ he
      simp only [wireOf_addWrite _ _ (hout (hneed (by rw [hpc]; rfl))), hp, List.nil_append, h0, List.take_zero]
    all_goals exact hp
  exact hP.2

/-- C70, consequence: another sender on the stream (every write on a closed `os.File` fails and accepts nothing) loses
every message, and once it has accepted one its `End` does not return. -/
theorem C70_next_sender_violated (d : Dialed) (before after : List Event) (s : State)
    (h : DialHistory d (before ++ .endCall :: after) s) (hw : ∀ nb r, .write nb r ∈ before ++ .endCall :: after → nb = 0)
    (hm : frames d.transport before ≠ []) : wire s = [] ∧ (s.crashed = false → s.endCompleted = false) := by
  have hnil := wire_nil h.1 hw
  refine ⟨hnil, fun hc => ?_⟩
  cases hend : s.endCompleted with
  | false => rfl
  | true =>
    have hpre := C35_end_flushes _ _ _ _ h.1 hend hc
    rw [hnil] at hpre
    have := List.prefix_nil.mp hpre
    cases hf : frames d.transport before with
    | nil => exact absurd hf hm
    | cons x r =>
      rw [hf] at this
      simp only [List.flatten_cons, List.append_eq_nil_iff] at this
      exact absurd this.1 (frames_ne_nil d.transport before x (by rw [hf]; simp))

example : ∃ s, DialHistory ⟨.stderr, .lfEnded, none⟩
    ([.send (exMsg b!"x")] ++ .endCall :: [.seeEnd, .tau, .tau, .connect none, .tau, .tau, .write 0 (some (.other 9)), .tau, .tau, .tau]) s ∧
    s.crashed = false := by
  refine ⟨⟨[b!"<14>1 1970-01-01T00:00:00Z h a 1 - - x\n"], [⟨[[]], false⟩], false, false, [.write 9], true, false, false, false, .test true⟩,
    ⟨by decide +kernel, ?_⟩, rfl⟩
  intro e he
  simp only [List.cons_append, List.nil_append, List.mem_cons, List.not_mem_nil, or_false] at he
  rcases he with h | h | h | h | h | h | h | h | h | h | h | h <;> subst h <;> rfl

/-! ## C71 -/

/-- C71 is violated: `Dial` does not report an address that can never work. -/
theorem C71_dial_violated (flushDelay : Int) (address : Bytes) (t : Option Transport) :
    (address ≠ b!"stderr:" → address ≠ b!"stdout:" → ∃ d e, dial flushDelay b!"stdio" address t = .ok d ∧ d.connector = .invalid e) ∧
    (∀ network, network ∈ [b!"tcp", b!"tcp4", b!"tcp6"] → ∃ d e, dial flushDelay network [] t = .ok d ∧ d.connector = .invalid e) := by
  constructor
  · intro h1 h2
    obtain ⟨d, hd⟩ := (C48_networks flushDelay b!"stdio" address t).mpr (by decide)
    obtain ⟨e, he⟩ := ((C48_destination _ _ _ _ _ hd).1 rfl).2.2 h1 h2
    exact ⟨d, e, hd, he⟩
  · intro network hn
    obtain ⟨d, hd⟩ := (C48_networks flushDelay network [] t).mpr (by
      simp only [List.mem_cons, List.not_mem_nil, or_false] at hn
      rcases hn with rfl | rfl | rfl <;> decide)
    have := (C48_destination _ _ _ _ _ hd).2.2.2 (by
      simp only [List.mem_cons, List.not_mem_nil, or_false] at hn
      rcases hn with rfl | rfl | rfl <;> simp)
    exact ⟨d, _, hd, this.2 rfl⟩

/-- A sender that never connects has no connection. -/
theorem invalid_history {d : Dialed} {e : Err} (hc : d.connector = .invalid e) {es : List Event} {s : State}
    (h : DialHistory d es s) : s.conns = [] ∧ s.output = false := by
  let P : State → Prop := fun s => (∃ fr, Inv fr s) ∧ s.conns = [] ∧ s.output = false
  have hP : P s := by
    refine run_induct (P := P) h.1 ⟨⟨_, inv_init⟩, rfl, rfl⟩ ?_
    rintro a ev b he ⟨⟨fr, hi⟩, hp1, hp2⟩ hab
    refine ⟨⟨_, inv_step hi hab⟩, ?_⟩
    have hneed := hi.need
    have hcan := h.2 ev he
    obtain ⟨hcr, htr⟩ := step_tr hab
    clear hab hi hcr
    cases htr
    case connOk => simp [Dialed.can, hc, Connector.can] at hcan
    case closeOut hpc ho => rw [hp2] at ho; simp at ho
    case writeOk f k n x hpc hx =>
      have := hneed (by rw [hpc]; rfl)
      rw [hp2] at this; simp at this
    case writeNobufs f k n nb x hpc hx hle =>
      have := hneed (by rw [hpc]; rfl)
      rw [hp2] at this; simp at this
    case writeErr f k n nb e x hpc hx hle =>
      have := hneed (by rw [hpc]; rfl)
      rw [hp2] at this; simp at this
    case errWrite => exact ⟨hp1, rfl⟩
    all_goals exact ⟨hp1, hp2⟩
  exact hP.2

/-- C71 is violated: a sender with an invalid destination cannot be ended: `End` never returns, whatever the program
does. -/
theorem C71_end_violated (d : Dialed) (e : Err) (hc : d.connector = .invalid e) (es : List Event) (s : State) (h : DialHistory d es s) :
    s.endCompleted = false ∧ wire s = [] := by
  obtain ⟨h1, h2⟩ := invalid_history hc h
  constructor
  · cases hend : s.endCompleted with
    | false => rfl
    | true =>
      obtain ⟨c, hcm, _⟩ := closed_history h.1 (by
        have := (inv_history h.1).comp
        rw [hend] at this
        revert this
        cases s.pc <;> simp)
      rw [h1] at hcm
      simp at hcm
  · simp [wire, h1]

/-- C71 is violated: if nothing was sent, ending such a sender crashes the program: the crash is the only step its
goroutine can take once it has seen the end. -/
theorem C71_crash_violated (d : Dialed) (e : Err) (hc : d.connector = .invalid e) (es : List Event) (s : State) (h : DialHistory d es s)
    (hpc : s.pc = .closeOut) (ev : Event) (hev : isRunner ev = true) (s' : State)
    (hst : step d.transport s ev = some s') : s'.crashed = true := by
  obtain ⟨_, h2⟩ := invalid_history hc h
  obtain ⟨_, htr⟩ := step_tr hst
  cases htr <;> first
    | rfl
    | (simp [isRunner] at hev; done)
    | (rename_i h3 _; rw [hpc] at h3; cases h3; done)
    | (rename_i h3; rw [hpc] at h3; cases h3; done)
    | (rename_i h3 _ _; rw [hpc] at h3; cases h3; done)
    | (rename_i h3 h4; rw [h2] at h4; cases h4)

example : ∃ d s, dialDefault b!"stdio" b!"stdrr:" = .ok d ∧ (∃ e, d.connector = .invalid e) ∧
    DialHistory d [.endCall, .seeEnd, .tau] s ∧ s.pc = .closeOut ∧ s.crashed = false := by
  refine ⟨⟨.invalid .invalidAddress, .lfEnded, some 500000000⟩,
    ⟨[], [], false, false, [], true, false, false, false, .closeOut⟩, by decide, ⟨_, rfl⟩, ⟨by decide +kernel, ?_⟩, rfl, rfl⟩
  intro e he
  simp only [List.mem_cons, List.not_mem_nil, or_false] at he
  rcases he with h | h | h <;> subst h <;> rfl

/-- C71 (partial): each attempt to connect reports its error on the error channel: as long as its errors are read, a
sender with an invalid destination reports one error for each flush. -/
theorem C71_reported_partial (d : Dialed) (e : Err) (hc : d.connector = .invalid e) (es : List Event) (s : State) (h : DialHistory d es s) :
    ∃ pending, pending ≤ 1 ∧ (es.filter fun ev => match ev with | .connect _ => true | _ => false).length =
      (received es).length + s.errs.length + pending := by
  refine ⟨(pendErr s.pc).length, by cases s.pc <;> simp [pendErr], ?_⟩
  have h59 : errors es = received es ++ s.errs ++ pendErr s.pc := by
    rw [C59_reported _ _ _ h.1]; congr 1
  have key : ∀ es : List Event, (∀ ev ∈ es, d.can ev = true) → (∀ nb r, .write nb r ∉ es) →
      (es.filter fun ev => match ev with | .connect _ => true | _ => false).length = (errors es).length := by
    intro es
    induction es with
    | nil => intro _ _; rfl
    | cons ev r ih =>
      intro h1 h2
      have hr := ih (fun x hx => h1 x (by simp [hx])) (fun nb x hx => h2 nb x (by simp [hx]))
      have hev := h1 ev (by simp)
      cases ev with
      | connect x =>
        cases x with
        | none => simp [Dialed.can, hc, Connector.can] at hev
        | some x => simp [errors, hr]
      | write nb x => exact absurd (List.mem_cons_self) (h2 nb x)
      | _ => simpa [errors] using hr
  rw [key es h.2 ?_, h59]
  · simp; omega
  · intro nb r hmem
    obtain ⟨pre, post, rfl⟩ := List.append_of_mem hmem
    obtain ⟨s1, ha, hb⟩ := run_split h.1
    simp only [run] at hb
    have hi1 := inv_history ha
    have hinv := invalid_history hc (d := d) (es := pre) (s := s1) ⟨ha, fun e he => h.2 e (by simp [he])⟩
    cases hst : step d.transport s1 (.write nb r) with
    | none => rw [hst] at hb; simp at hb
    | some x =>
      obtain ⟨_, htr⟩ := step_tr hst
      have hn := hi1.need
      cases htr <;> (rename_i hpc _ _ <;> first | (have := hn (by rw [hpc]; rfl); rw [hinv.2] at this; simp at this) | skip)
      all_goals (rename_i hpc _ <;> (have := hn (by rw [hpc]; rfl); rw [hinv.2] at this; simp at this))

/-! ## C75 -/

/-- C75: with a flush delay of at most a millisecond nothing happens before `End` is called: the sender does not connect, writes
nothing and reports nothing; every message accepted is in the queue, once, in order, and `Send` is never blocked. -/
theorem C75_no_automatic_flush (flushDelay : Int) (hdelay : flushDelay ≤ 1000000) (network address : Bytes) (t : Option Transport) (d : Dialed)
    (hd : dial flushDelay network address t = .ok d) (es : List Event) (s : State) (h : DialHistory d es s) (hend : .endCall ∉ es) :
    (∀ e ∈ es, isRunner e = false) ∧ s.conns = [] ∧ s.errs = [] ∧ s.queue = frames d.transport es ∧ s.locked = false := by
  have hper : d.period = none := (C48_options _ _ _ _ _ hd).2.2.1.mpr hdelay
  have key : ∀ (es : List Event) (a : State), run d.transport a es = some s → (∀ e ∈ es, d.can e = true) → .endCall ∉ es →
      a.pc = .select → a.endAsked = false → a.conns = [] → a.errs = [] → a.locked = false →
      (∀ e ∈ es, isRunner e = false) ∧ s.conns = [] ∧ s.errs = [] ∧ s.queue = a.queue ++ frames d.transport es ∧ s.locked = false := by
    intro es
    induction es with
    | nil =>
      intro a hr _ _ _ _ h4 h5 h6
      simp only [run, Option.some.injEq] at hr
      subst hr
      exact ⟨by simp, h4, h5, by simp [frames], h6⟩
    | cons e es ih =>
      intro a hr hcan hne hpc hask h4 h5 h6
      simp only [run] at hr
      cases hst : step d.transport a e with
      | none => rw [hst] at hr; simp at hr
      | some b =>
        rw [hst] at hr
        simp only [Option.bind_some] at hr
        have next := ih b hr (fun e he => hcan e (by simp [he])) (fun hm => hne (by simp [hm]))
        have hc0 := hcan e (by simp)
        obtain ⟨hcr, htr⟩ := step_tr hst
        clear hst
        cases htr
        case sendOk m x hm hl =>
          obtain ⟨k1, k2, k3, k4, k5⟩ := next hpc hask h4 h5 h6
          refine ⟨?_, k2, k3, ?_, k5⟩
          · intro e he
            rcases List.mem_cons.mp he with rfl | he
            · rfl
            · exact k1 e he
          · simp [k4, frames, hm]
        case sendErr m x hm =>
          obtain ⟨k1, k2, k3, k4, k5⟩ := next hpc hask h4 h5 h6
          refine ⟨?_, k2, k3, ?_, k5⟩
          · intro e he
            rcases List.mem_cons.mp he with rfl | he
            · rfl
            · exact k1 e he
          · simp [k4, frames, hm]
        case sendPanic m hm =>
          obtain ⟨k1, k2, k3, k4, k5⟩ := next hpc hask h4 h5 h6
          refine ⟨?_, k2, k3, ?_, k5⟩
          · intro e he
            rcases List.mem_cons.mp he with rfl | he
            · rfl
            · exact k1 e he
          · simp [k4, frames, hm]
        case endTwice => exact absurd (by simp) hne
        case endOnce => exact absurd (by simp) hne
        case recv h => rw [h5] at h; cases h
        case tick => simp [Dialed.can, hper] at hc0
        case seeEnd h _ => rw [hask] at *; contradiction
        all_goals first
          | (rename_i hx; rw [hpc] at hx; cases hx; done)
          | (rename_i hx _; rw [hpc] at hx; cases hx; done)
          | (rename_i hx _ _; rw [hpc] at hx; cases hx; done)
  have := key es init h.1 h.2 hend rfl rfl rfl rfl rfl
  simpa [init] using this

/-- C75: in every history of such a sender, what its goroutine does, it does after the call of `End`. -/
theorem C75_only_after_end (flushDelay : Int) (hdelay : flushDelay ≤ 1000000) (network address : Bytes) (t : Option Transport) (d : Dialed)
    (hd : dial flushDelay network address t = .ok d) (before after : List Event) (e : Event) (s : State)
    (h : DialHistory d (before ++ e :: after) s) (he : isRunner e = true) : .endCall ∈ before := by
  refine Classical.byContradiction fun hn => ?_
  have hn' : .endCall ∉ before ++ [e] := by
    intro hm
    rcases List.mem_append.mp hm with hm | hm
    · exact hn hm
    · simp only [List.mem_singleton] at hm; subst hm; simp [isRunner] at he
  have h' : History d.transport ((before ++ [e]) ++ after) s := by rw [List.append_assoc]; exact h.1
  obtain ⟨s1, ha, _⟩ := run_split h'
  have := (C75_no_automatic_flush flushDelay hdelay network address t d hd (before ++ [e]) s1
    ⟨ha, fun x hx => h.2 x (by rcases List.mem_append.mp hx with hx | hx <;> simp_all)⟩ hn').1 e (by simp)
  rw [he] at this; cases this

/-- The hypotheses are met: nothing is written before `End`, everything after it. -/
example : ∃ d s, dial 0 b!"stdio" b!"stderr:" none = .ok d ∧ DialHistory d [.send (exMsg b!"x"), .send (exMsg b!"y")] s ∧
    s.queue.length = 2 ∧ wire s = [] := by
  refine ⟨⟨.stderr, .lfEnded, none⟩,
    ⟨[b!"<14>1 1970-01-01T00:00:00Z h a 1 - - x\n", b!"<14>1 1970-01-01T00:00:00Z h a 1 - - y\n"], [], false, false, [], false, false, false, false, .select⟩,
    by decide, ⟨by decide +kernel, ?_⟩, rfl, rfl⟩
  intro e he
  simp only [List.mem_cons, List.not_mem_nil, or_false] at he
  rcases he with h | h <;> subst h <;> rfl

example : ∃ d s, dial 0 b!"stdio" b!"stderr:" none = .ok d ∧ DialHistory d exEnd s ∧ wire s ≠ [] := by
  refine ⟨⟨.stderr, .lfEnded, none⟩,
    ⟨[], [⟨[b!"<14>1 1970-01-01T00:00:00Z h a 1 - - x\n"], true⟩], true, false, [], true, true, false, false, .closeErr⟩,
    by decide, ⟨by decide +kernel, ?_⟩, by decide +kernel⟩
  intro e he
  simp only [exEnd, List.mem_cons, List.not_mem_nil, or_false] at he
  rcases he with h | h | h | h | h | h | h | h | h | h | h | h | h | h | h <;> subst h <;> rfl

end Syslog5424
