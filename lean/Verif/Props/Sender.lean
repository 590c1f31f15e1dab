import Verif.Lemmas.Sender
/-! # Properties C34 to C39, C58 and C59: the sender -/
namespace Syslog5424
open Spec Sender

/-! ## messages used in the examples -/

/-- A message with text `x`. -/
def exMsg (x : Bytes) : Message := Message.forge 14 .epoch b!"h" b!"a" b!"1" b!"-" x

theorem exMsg_marshal : (exMsg b!"x").marshal = .ret (.ok b!"<14>1 1970-01-01T00:00:00Z h a 1 - - x") := by decide +kernel

/-! ## C34 -/

/-- C34: after any history of calls, ticks, connect results, complete, partial and failing writes, what was written
over all connections, in order, followed by what is still queued (less what the write in progress has already
accepted) is the concatenation of the frames of the accepted messages, in order. -/
theorem C34_exactly_once (t : Transport) (es : List Event) (s : State) (h : History t es s) :
    wire s ++ s.queue.flatten.drop (match s.pc with | .write _ _ n => n | _ => 0) = (frames t es).flatten := by
  have := (inv_history h).data
  unfold wire
  rw [← this]
  unfold wireOf
  congr 2

/-- C34: so what is written is always a prefix of the accepted frames, whatever happens next. -/
theorem C34_prefix (t : Transport) (es : List Event) (s : State) (h : History t es s) :
    wire s <+: (frames t es).flatten := ⟨_, C34_exactly_once t es s h⟩

/-- C34: and what was written is never taken back. -/
theorem C34_monotone (t : Transport) (es es' : List Event) (s s' : State) (h : History t es s) (h' : run t s es' = some s') :
    History t (es ++ es') s' ∧ wire s <+: wire s' := ⟨run_append h h', run_wire h'⟩

/-- A history with a message, a partial write that fails and a new connection. -/
def exHistory : List Event :=
  [.send (exMsg b!"x"), .tick, .tau, .connect none, .tau, .tau, .write 10 (some (.other 0)), .tau, .tau, .tick, .tau, .connect none, .tau, .tau]

example : ∃ s, History .lfEnded exHistory s ∧ s.conns = [⟨[b!"<14>1 1970"], false⟩, ⟨[], false⟩] ∧
    s.queue = [b!"-01-01T00:00:00Z h a 1 - - x\n"] :=
  ⟨⟨[b!"-01-01T00:00:00Z h a 1 - - x\n"], [⟨[b!"<14>1 1970"], false⟩, ⟨[], false⟩], true, true, [.write 0], false, false, false, false,
    .write false 0 0⟩, by decide +kernel, rfl, rfl⟩

/-! ## C35 -/

/-- `runQueue` is past its last look at the queue. -/
def closing : PC → Bool
  | .closeOut => true
  | .closeDone => true
  | .closeErr => true
  | .done => true
  | _ => false

/-- Past its last look at the queue, everything accepted before `End` was called is written. -/
theorem closing_written (t : Transport) (before after : List Event) (s : State)
    (h : History t (before ++ .endCall :: after) s) (hcl : closing s.pc = true) (hal : s.crashed = false) :
    (frames t before).flatten <+: wireOf s.conns := by
  obtain ⟨s1, h1, h2⟩ := run_split h
  have hi1 := inv_history h1
  simp only [run] at h2
  cases hst : step t s1 .endCall with
  | none => rw [hst] at h2; simp at h2
  | some s2 =>
    rw [hst] at h2
    simp only [Option.bind_some] at h2
    have hi2 := inv_step hi1 hst
    have hpc : closing s2.pc = false ∨ s2.crashed = true := by
      obtain ⟨_, htr⟩ := step_tr hst
      cases htr with
      | endTwice => right; rfl
      | endOnce he =>
        left
        show closing s1.pc = false
        cases hc : closing s1.pc with
        | false => rfl
        | true =>
          have : ending s1.pc = true := by
            revert hc; cases s1.pc <;> simp [closing, ending]
          rw [hi1.fin this] at he; exact absurd he (by simp)
    rcases hpc with hpc | hcr
    · have key : (∃ fr, Inv (frames t before ++ fr) s) ∧
          (closing s.pc = true → (frames t before).flatten <+: wireOf s.conns) := by
        refine run_induct (P := fun s => (∃ fr, Inv (frames t before ++ fr) s) ∧
          (closing s.pc = true → (frames t before).flatten <+: wireOf s.conns)) h2 ⟨⟨_, hi2⟩, by simp [hpc]⟩ ?_
        intro a e b hmem hp hab
        clear hmem
        obtain ⟨⟨fr, hi⟩, hcl⟩ := hp
        have hi' := inv_step hi hab
        rw [List.append_assoc] at hi'
        refine ⟨⟨_, hi'⟩, fun hc => ?_⟩
        cases hca : closing a.pc with
        | true => exact (hcl hca).trans (step_wire hab)
        | false =>
          obtain ⟨_, htr⟩ := step_tr hab
          cases htr
          case drainEnd hp hq =>
            have hd := hi'.data
            simp only [pend, List.drop_zero, hq, List.flatten_nil, List.append_nil] at hd
            show _ <+: wireOf a.conns
            rw [hd, List.flatten_append]
            exact List.prefix_append _ _
          case errConn f _ hp _ => cases f <;> simp [ret, closing] at hc
          case unlock f hp => cases f <;> simp [ret, closing] at hc
          all_goals first
            | (simp only [hca, Bool.false_eq_true] at hc; done)
            | (simp [closing] at hc; done)
            | (rename_i hp _; rw [hp] at hca; simp [closing] at hca; done)
            | (rename_i hp; rw [hp] at hca; simp [closing] at hca; done)
      exact key.2 hcl
    · cases after with
      | nil =>
        simp only [run, Option.some.injEq] at h2
        subst h2
        rw [hcr] at hal; simp at hal
      | cons e r =>
        simp only [run] at h2
        cases hx : step t s2 e with
        | none => rw [hx] at h2; simp at h2
        | some y => have := (step_tr hx).1; rw [hcr] at this; simp at this

/-- C35: when `End` has returned, every message accepted before it was called has been completely written. -/
theorem C35_end_flushes (t : Transport) (before after : List Event) (s : State)
    (h : History t (before ++ .endCall :: after) s) (hret : s.endCompleted = true) (hal : s.crashed = false) :
    (frames t before).flatten <+: wire s := by
  apply closing_written t before after s h _ hal
  have := (inv_history h).comp
  rw [hret] at this
  revert this
  cases s.pc <;> simp [closing]

/-- A history that sends a message, ends, and terminates. -/
def exEnd : List Event :=
  [.send (exMsg b!"x"), .endCall, .seeEnd, .tau, .tau, .connect none, .tau, .tau, .write 39 none, .tau, .tau, .tau, .tau, .tau, .tau]

example : ∃ s, History .lfEnded exEnd s ∧ s.endCompleted = true ∧ s.crashed = false ∧
    s.conns = [⟨[b!"<14>1 1970-01-01T00:00:00Z h a 1 - - x\n"], true⟩] :=
  ⟨⟨[], [⟨[b!"<14>1 1970-01-01T00:00:00Z h a 1 - - x\n"], true⟩], true, false, [], true, true, false, false, .closeErr⟩,
    by decide +kernel, rfl, rfl, rfl⟩

/-! ## C36 -/

/-- A crash is the last event. -/
theorem crash_last {t : Transport} {es : List Event} {s : State} (h : History t es s) (hc : s.crashed = true) :
    ∃ es' e s1, es = es' ++ [e] ∧ History t es' s1 ∧ step t s1 e = some s := by
  rcases List.eq_nil_or_concat es with rfl | ⟨es', e, rfl⟩
  · simp only [History, run, Option.some.injEq] at h; subst h; simp [init] at hc
  · rw [List.concat_eq_append] at h ⊢
    obtain ⟨s1, h1, h2⟩ := run_split h
    refine ⟨es', e, s1, rfl, h1, ?_⟩
    simp only [run] at h2
    cases hst : step t s1 e with
    | none => rw [hst] at h2; simp at h2
    | some x => rw [hst] at h2; simpa using h2

theorem endAsked_mem {t : Transport} {es : List Event} {s : State} (h : History t es s) (ha : s.endAsked = true) : .endCall ∈ es := by
  have := run_induct (P := fun s => s.endAsked = true → .endCall ∈ es) h (by simp [init]) (by
    intro a e b he hp hab hb
    obtain ⟨_, htr⟩ := step_tr hab
    cases htr
    case endOnce => exact he
    all_goals exact hp hb)
  exact this ha

/-- C36 (partial): the program crashes only in three ways: the marshalling of a message given to `Send` panics, `End`
is called a second time, or the sender ends without a connection. Missing: the last one is a crash after a single
call of `End`, see `C36_end_violated`. -/
theorem C36_causes_partial (t : Transport) (es : List Event) (s : State) (h : History t es s) (hc : s.crashed = true) :
    ∃ es' e s1, es = es' ++ [e] ∧ History t es' s1 ∧
      ((∃ m, e = .send m ∧ m.marshal = .panic) ∨ (e = .endCall ∧ .endCall ∈ es') ∨ (.endCall ∈ es' ∧ s1.output = false)) := by
  obtain ⟨es', e, s1, he, h1, hst⟩ := crash_last h hc
  refine ⟨es', e, s1, he, h1, ?_⟩
  obtain ⟨hcr, htr⟩ := step_tr hst
  have hi := inv_history h1
  cases htr
  case sendPanic hm => exact Or.inl ⟨_, rfl, hm⟩
  case endTwice ha => exact Or.inr (Or.inl ⟨rfl, endAsked_mem h1 ha⟩)
  case closeNil hp ho => exact Or.inr (Or.inr ⟨endAsked_mem h1 (hi.fin (by rw [hp]; rfl)), ho⟩)
  all_goals (simp only [hcr, Bool.false_eq_true] at hc)

theorem encode_ne_nil (t : Transport) (b : Bytes) : t.encode b ≠ [] := by
  cases t <;> simp [Transport.encode]

theorem frames_ne_nil (t : Transport) (es : List Event) : ∀ f ∈ frames t es, f ≠ [] := by
  induction es with
  | nil => simp [frames]
  | cons e r ih =>
    cases e with
    | send m =>
      simp only [frames]
      split
      · intro f hf
        rcases List.mem_cons.mp hf with rfl | hf
        · exact encode_ne_nil t _
        · exact ih f hf
      · exact ih
    | _ => exact ih

/-- C36 (partial): if no connect and no write failed, the messages can be marshalled without panic and at least one of
them was accepted before the single call of `End`, the program never crashes. -/
theorem C36_no_failure_partial (t : Transport) (before after : List Event) (s : State)
    (h : History t (before ++ .endCall :: after) s)
    (hfail : ∀ e ∈ before ++ after, fails e = false) (hone : .endCall ∉ before ∧ .endCall ∉ after)
    (hmsg : ∀ m, .send m ∈ before ++ after → m.marshal ≠ .panic) (hsome : frames t before ≠ []) : s.crashed = false := by
  cases hc : s.crashed with
  | false => rfl
  | true =>
    exfalso
    obtain ⟨es', e, s1, he, h1, hst⟩ := crash_last h hc
    obtain ⟨hcr, htr⟩ := step_tr hst
    rcases List.eq_nil_or_concat after with rfl | ⟨after', e', rfl⟩
    · obtain ⟨rfl, hx⟩ := List.append_inj' he rfl
      simp only [List.cons.injEq, and_true] at hx
      subst hx
      cases htr
      case endTwice ha => exact hone.1 (endAsked_mem h1 ha)
      case endOnce => simp [hcr] at hc
    · rw [List.concat_eq_append, ← List.cons_append, ← List.append_assoc] at he
      obtain ⟨rfl, hx⟩ := List.append_inj' he rfl
      simp only [List.cons.injEq, and_true] at hx
      subst hx
      cases htr
      case sendPanic m hm => exact hmsg m (by simp) hm
      case endTwice ha => exact hone.2 (by simp)
      case closeNil hp ho =>
        have hw := closing_written t before after' s1 h1 (by rw [hp]; rfl) hcr
        have hconn : s1.conns ≠ [] := by
          intro hn
          rw [hn] at hw
          simp only [wireOf, List.map_nil, List.flatten_nil, List.prefix_nil] at hw
          cases hf : frames t before with
          | nil => exact hsome hf
          | cons f r =>
            rw [hf, List.flatten_cons, List.append_eq_nil_iff] at hw
            exact frames_ne_nil t before f (by rw [hf]; simp) hw.1
        have hinv := run_induct (P := fun s => (s.conns ≠ [] → s.output = true) ∧ (∀ f e, s.pc ≠ .errWrite f e)) h1
          (by simp [init]) (by
            intro a e b hmem hp hab
            have hf : fails e = false := by
              rcases List.mem_append.mp hmem with hm | hm
              · exact hfail e (List.mem_append_left _ hm)
              · rcases List.mem_cons.mp hm with rfl | hm
                · rfl
                · exact hfail e (by simp [hm])
            obtain ⟨_, htr⟩ := step_tr hab
            obtain ⟨hp1, hp2⟩ := hp
            cases htr
            case writeErr => simp [fails] at hf
            case writeNobufs => simp [fails] at hf
            case connErr => simp [fails] at hf
            case errWrite f e hpc _ => exact absurd hpc (hp2 _ _)
            case connOk => exact ⟨fun _ => rfl, by simp⟩
            case writeOk f k n b hpc hb =>
              refine ⟨fun hne => hp1 ?_, by simp⟩
              intro hn
              simp only [hn, addWrite] at hne
              exact hne rfl
            case closeOut hpc ho => exact ⟨fun _ => ho, by simp⟩
            case errConn f _ _ _ => exact ⟨hp1, by cases f <;> simp [ret]⟩
            case unlock f _ => exact ⟨hp1, by cases f <;> simp [ret]⟩
            all_goals first
              | exact ⟨hp1, hp2⟩
              | exact ⟨hp1, by simp⟩)
        rw [hinv.1 hconn] at ho
        simp at ho
      all_goals (simp only [hcr, Bool.false_eq_true] at hc)

/-- C36 is violated: `End` on a sender that was never flushed (or whose connection failed) calls `Close` on a nil
interface: the program crashes. Here, right after `NewSender`. -/
theorem C36_end_violated (t : Transport) : ∃ es s, History t es s ∧ es = [.endCall, .seeEnd, .tau, .tau] ∧ s.crashed = true :=
  ⟨[.endCall, .seeEnd, .tau, .tau], ⟨[], [], false, false, [], true, false, false, true, .closeOut⟩, rfl, rfl, rfl⟩

/-! ## C37 -/

theorem prefix_whole (fs : List Bytes) (d : Bytes) (h : d <+: fs.flatten) :
    ∃ j p, d = (fs.take j).flatten ++ p ∧ (p = [] ∨ ∃ f, fs[j]? = some f ∧ p <+: f) := by
  induction fs generalizing d with
  | nil =>
    simp only [List.flatten_nil, List.prefix_nil] at h
    subst h
    exact ⟨0, [], rfl, Or.inl rfl⟩
  | cons f r ih =>
    rw [List.flatten_cons] at h
    rcases Nat.le_total d.length f.length with hle | hle
    · have := List.prefix_of_prefix_length_le h (List.prefix_append f r.flatten) hle
      exact ⟨0, d, rfl, Or.inr ⟨f, rfl, this⟩⟩
    · have := List.prefix_of_prefix_length_le (List.prefix_append f r.flatten) h hle
      obtain ⟨d', rfl⟩ := this
      rw [List.prefix_append_right_inj] at h
      obtain ⟨j, p, e, hp⟩ := ih d' h
      refine ⟨j + 1, p, ?_, ?_⟩
      · rw [e, List.take_succ_cons, List.flatten_cons, List.append_assoc]
      · simpa using hp

/-- C37 (partial): the bytes written on the first connection are whole frames followed by at most the beginning of one,
whatever happens. Missing: the connections made after a failed write, see `C37_reconnect_violated`. -/
theorem C37_first_partial (t : Transport) (es : List Event) (s : State) (h : History t es s) (c : Conn) (r : List Conn)
    (hc : s.conns = c :: r) : WholeFrames (frames t es) c.writes.flatten := by
  have hw := C34_prefix t es s h
  have hp : c.writes.flatten <+: (frames t es).flatten := by
    refine List.IsPrefix.trans ?_ hw
    unfold wire
    rw [hc, List.map_cons, List.flatten_cons]
    exact List.prefix_append _ _
  obtain ⟨j, p, e, hp⟩ := prefix_whole _ _ hp
  exact ⟨0, j, p, by simpa using e, by simpa using hp⟩

/-- The buffer that `WriteTo` is about to write. -/
def posOf : PC → Nat
  | .write _ k _ => k
  | _ => 0

theorem consume_take (q : List Bytes) (h : ∀ b ∈ q, b ≠ []) (k : Nat) (hk : k ≤ q.length) :
    consume q (q.take k).flatten.length = q.drop k := by
  induction q generalizing k with
  | nil => simp [consume]
  | cons b r ih =>
    cases k with
    | zero =>
      have : 0 < b.length := List.length_pos_iff.mpr (h b (by simp))
      unfold consume
      rw [if_pos (by simpa using this)]
      simp
    | succ k =>
      unfold consume
      have hl : ((b :: r).take (k + 1)).flatten.length = b.length + (r.take k).flatten.length := by simp
      rw [hl, if_neg (by omega), Nat.add_sub_cancel_left, ih (fun x hx => h x (by simp [hx])) k (by simpa using hk)]
      rfl

/-- Everything accepted by each `Write`, over all connections. -/
def allWrites (cs : List Conn) : List Bytes := cs.flatMap (·.writes)

theorem allWrites_addWrite (d : Bytes) (cs : List Conn) (h : cs ≠ []) : allWrites (addWrite d cs) = allWrites cs ++ [d] := by
  induction cs with
  | nil => exact absurd rfl h
  | cons c r ih =>
    cases r with
    | nil => simp [addWrite, allWrites]
    | cons c' r' =>
      have := ih (by simp)
      simp only [addWrite]
      simp only [allWrites, List.flatMap_cons] at this ⊢
      rw [this]; simp only [List.append_assoc]

theorem allWrites_closeLast (cs : List Conn) : allWrites (closeLast cs) = allWrites cs := by
  induction cs with
  | nil => rfl
  | cons c r ih =>
    cases r with
    | nil => simp [closeLast, allWrites]
    | cons c' r' =>
      simp only [closeLast]
      simp only [allWrites, List.flatMap_cons] at ih ⊢
      rw [ih]

/-- The frame level invariant when failing writes accept nothing. -/
def CleanInv (fr : List Bytes) (s : State) : Prop :=
  Inv fr s ∧ (allWrites s.conns).filter (fun w => w ≠ []) ++ s.queue.drop (posOf s.pc) = fr ∧ ∀ f ∈ s.queue, f ≠ []

theorem clean_step {t : Transport} {fr : List Bytes} {a b : State} {e : Event} (hclean : ∀ nb x, e = .write nb (some x) → nb = 0)
    (hp : CleanInv fr a) (hab : step t a e = some b) : CleanInv (fr ++ frames t [e]) b := by
  obtain ⟨hi, hd, hq⟩ := hp
  have hi' := inv_step hi hab
  refine ⟨hi', ?_⟩
  obtain ⟨_, htr⟩ := step_tr hab
  have hpos0 : ∀ pc, holds pc = false → posOf pc = 0 := by
    intro pc; cases pc <;> simp [holds, posOf]
  cases htr
  case sendOk m x hm hl =>
    have h0 := hpos0 a.pc (by rw [← hi.lock]; exact hl)
    simp only [frames, hm]
    simp only [h0, List.drop_zero] at hd ⊢
    refine ⟨by rw [← List.append_assoc, hd], ?_⟩
    intro f hf
    rcases List.mem_append.mp hf with hf | hf
    · exact hq f hf
    · simp only [List.mem_singleton] at hf; subst hf; exact encode_ne_nil t x
  case sendErr m x hm => simp only [frames, hm, List.append_nil]; exact ⟨hd, hq⟩
  case sendPanic m hm => simp only [frames, hm, List.append_nil]; exact ⟨hd, hq⟩
  case endTwice => simp only [frames, List.append_nil]; exact ⟨hd, hq⟩
  case endOnce => simp only [frames, List.append_nil]; exact ⟨hd, hq⟩
  case recv => simp only [frames, List.append_nil]; exact ⟨hd, hq⟩
  case connOk f hpc =>
    simp only [frames, List.append_nil]
    refine ⟨?_, hq⟩
    rw [hpc] at hd
    simpa [allWrites, posOf] using hd
  case writeEnd f k n hpc hk =>
    simp only [frames, List.append_nil]
    obtain ⟨h1, h2⟩ := hi.pos f k n hpc
    have hc := consume_take a.queue hq k h1
    rw [← h2] at hc
    simp only [hc, posOf, List.drop_zero]
    rw [hpc] at hd
    exact ⟨hd, fun f hf => hq f (List.mem_of_mem_drop hf)⟩
  case writeOk f k n x hpc hx =>
    simp only [frames, List.append_nil]
    refine ⟨?_, hq⟩
    have hout := hi.out (hi.need (by rw [hpc]; rfl))
    have hne : x ≠ [] := hq x (List.mem_of_getElem? hx)
    have hlt : k < a.queue.length := by
      rcases Nat.lt_or_ge k a.queue.length with h1 | h1
      · exact h1
      · rw [List.getElem?_eq_none h1] at hx; simp at hx
    have hxe : a.queue[k] = x := by rw [List.getElem?_eq_getElem hlt] at hx; simpa using hx
    rw [allWrites_addWrite _ _ hout, List.filter_append]
    simp only [posOf]
    rw [hpc] at hd
    simp only [posOf] at hd
    rw [List.drop_eq_getElem_cons hlt, hxe] at hd
    rw [← hd]
    simp [hne]
  case writeNobufs f k n nb x hpc hx hle =>
    have h0 := hclean nb _ rfl
    subst h0
    simp only [frames, List.append_nil]
    have hout := hi.out (hi.need (by rw [hpc]; rfl))
    obtain ⟨h1, h2⟩ := hi.pos f k n hpc
    have hc := consume_take a.queue hq k h1
    rw [← h2] at hc
    rw [hpc] at hd
    refine ⟨?_, fun f hf => hq f (by
      simp only [Nat.add_zero, hc] at hf
      exact List.mem_of_mem_drop hf)⟩
    rw [allWrites_addWrite _ _ hout, List.filter_append]
    simp only [posOf, Nat.add_zero, hc, List.drop_zero, List.take_zero] at hd ⊢
    simpa using hd
  case writeErr f k n nb e x hpc hx hle =>
    have h0 := hclean nb _ rfl
    subst h0
    simp only [frames, List.append_nil]
    have hout := hi.out (hi.need (by rw [hpc]; rfl))
    obtain ⟨h1, h2⟩ := hi.pos f k n hpc
    have hc := consume_take a.queue hq k h1
    rw [← h2] at hc
    rw [hpc] at hd
    refine ⟨?_, fun f hf => hq f (by
      simp only [Nat.add_zero, hc] at hf
      exact List.mem_of_mem_drop hf)⟩
    rw [allWrites_addWrite _ _ hout, List.filter_append]
    simp only [posOf, Nat.add_zero, hc, List.drop_zero, List.take_zero] at hd ⊢
    simpa using hd
  case closeOut hpc ho =>
    simp only [frames, List.append_nil]
    rw [hpc] at hd
    rw [allWrites_closeLast]
    exact ⟨hd, hq⟩
  case unlock f hpc =>
    simp only [frames, List.append_nil]
    rw [hpc] at hd
    exact ⟨by cases f <;> exact hd, hq⟩
  case errConn f e hpc he =>
    simp only [frames, List.append_nil]
    rw [hpc] at hd
    exact ⟨by cases f <;> exact hd, hq⟩
  case closeNil hpc ho => simp only [frames, List.append_nil]; exact ⟨hd, hq⟩
  all_goals
    simp only [frames, List.append_nil]
    first
      | (rename_i hpc; rw [hpc] at hd; exact ⟨hd, hq⟩)
      | (rename_i hpc _; rw [hpc] at hd; exact ⟨hd, hq⟩)

theorem clean_run {t : Transport} {fr : List Bytes} {a b : State} {es : List Event}
    (hclean : ∀ nb x, .write nb (some x) ∈ es → nb = 0) (hp : CleanInv fr a) (hab : run t a es = some b) :
    CleanInv (fr ++ frames t es) b := by
  induction es generalizing a fr with
  | nil => simp only [run, Option.some.injEq] at hab; subst hab; simpa [frames] using hp
  | cons e r ih =>
    simp only [run] at hab
    cases hst : step t a e with
    | none => rw [hst] at hab; simp at hab
    | some x =>
      rw [hst] at hab
      have h1 := clean_step (fun nb x he => hclean nb x (by simp [he])) hp hst
      have := ih (fun nb x hx => hclean nb x (by simp [hx])) h1 hab
      rw [frames_cons, ← List.append_assoc]; exact this

/-- C37 (partial): if a `Write` that fails accepts nothing (datagram sockets), every `Write` that accepts something
accepts exactly one whole frame: in order, over all connections, the accepted writes are the accepted frames, followed
by the frames that wait. -/
theorem C37_datagram_partial (t : Transport) (es : List Event) (s : State) (h : History t es s)
    (hclean : ∀ nb x, .write nb (some x) ∈ es → nb = 0) :
    ∃ waiting, (s.conns.flatMap (·.writes)).filter (fun w => w ≠ []) ++ waiting = frames t es := by
  have := clean_run hclean (fr := []) (a := init) ⟨inv_init, rfl, by simp [init]⟩ h
  exact ⟨_, this.2.1⟩

/-- C37 is violated: after a partial write and an error, the next connection starts in the middle of a frame: here
the receiver of the second connection gets `-01-01T00:00:00Z h a 1 - - x`. -/
theorem C37_reconnect_violated : ∃ es s c, History .lfEnded es s ∧ c ∈ s.conns ∧
    ¬ WholeFrames (frames .lfEnded es) c.writes.flatten := by
  refine ⟨exHistory ++ [.write 29 none],
    ⟨[b!"-01-01T00:00:00Z h a 1 - - x\n"], [⟨[b!"<14>1 1970"], false⟩, ⟨[b!"-01-01T00:00:00Z h a 1 - - x\n"], false⟩], true, true,
      [.write 0], false, false, false, false, .write false 1 29⟩, ⟨[b!"-01-01T00:00:00Z h a 1 - - x\n"], false⟩, by decide +kernel,
    by simp, ?_⟩
  have hf : frames .lfEnded (exHistory ++ [.write 29 none]) = [b!"<14>1 1970-01-01T00:00:00Z h a 1 - - x\n"] := by decide +kernel
  rw [hf]
  rintro ⟨i, j, p, e, hp⟩
  rcases i with _ | i
  · rcases j with _ | j
    · rcases hp with rfl | ⟨f, hf, hp⟩
      · simp at e
      · simp only [Nat.add_zero, List.getElem?_cons_zero, Option.some.injEq] at hf
        subst hf
        simp only [List.drop_zero, List.take_zero, List.flatten_nil, List.nil_append] at e
        rw [← e] at hp
        revert hp; decide
    · simp only [List.drop_zero, List.take_succ_cons, List.take_nil] at e
      simp at e
  · simp only [List.drop_succ_cons, List.drop_nil, List.take_nil, List.flatten_nil, List.nil_append] at e
    rcases hp with rfl | ⟨f, hf, hp⟩
    · simp at e
    · have : ([b!"<14>1 1970-01-01T00:00:00Z h a 1 - - x\n"] : List Bytes)[i + 1 + j]? = none := by
        apply List.getElem?_eq_none; simp; omega
      rw [this] at hf; simp at hf

/-- A history with a failing write that accepts nothing. -/
def exClean : List Event :=
  [.send (exMsg b!"x"), .tick, .tau, .connect none, .tau, .tau, .write 0 (some (.other 0)), .tau, .tau, .tick, .tau, .connect none, .tau, .tau,
   .write 39 none]

example : (∀ nb x, Event.write nb (some x) ∈ exClean → nb = 0) ∧ ∃ s, History .lfEnded exClean s ∧
    s.conns = [⟨[[]], false⟩, ⟨[b!"<14>1 1970-01-01T00:00:00Z h a 1 - - x\n"], false⟩] :=
  ⟨by simp [exClean], ⟨[b!"<14>1 1970-01-01T00:00:00Z h a 1 - - x\n"],
    [⟨[[]], false⟩, ⟨[b!"<14>1 1970-01-01T00:00:00Z h a 1 - - x\n"], false⟩], true, true, [.write 0], false, false, false, false,
    .write false 1 39⟩, by decide +kernel, rfl⟩

/-! ## C38 -/

/-- Nobody reads the error channel and the sender has a second error to report: it waits for ever. -/
theorem stuck_run {t : Transport} {s s' : State} {es : List Event} (hpc : (∃ f e, s.pc = .errWrite f e) ∨ ∃ f e, s.pc = .errConn f e)
    (herr : s.errs ≠ []) (hno : ∀ e, .recvErr e ∉ es) (h : run t s es = some s') :
    s'.pc = s.pc ∧ s'.errs = s.errs ∧ s'.locked = s.locked ∧ s'.endCompleted = s.endCompleted ∧ s'.conns = s.conns := by
  refine run_induct (P := fun x => x.pc = s.pc ∧ x.errs = s.errs ∧ x.locked = s.locked ∧ x.endCompleted = s.endCompleted ∧ x.conns = s.conns)
    h ⟨rfl, rfl, rfl, rfl, rfl⟩ ?_
  intro a e b hmem hp hab
  obtain ⟨h1, h2, h3, h4, h5⟩ := hp
  obtain ⟨_, htr⟩ := step_tr hab
  have hpca : (∃ f e, a.pc = .errWrite f e) ∨ ∃ f e, a.pc = .errConn f e := by rw [h1]; exact hpc
  have herra : a.errs ≠ [] := by rw [h2]; exact herr
  have hne : ∀ e', e = .recvErr e' → False := fun e' he => hno e' (he ▸ hmem)
  clear hmem hno hab hpc herr
  cases htr
  case recv e r _ => exact absurd rfl (hne _)
  case errConn hq => exact absurd hq herra
  case errWrite hq => exact absurd hq herra
  all_goals first
    | exact ⟨h1, h2, h3, h4, h5⟩
    | (exfalso
       clear h1 h2 h3 h4 h5 hne
       rcases hpca with ⟨f', e', hx⟩ | ⟨f', e', hx⟩ <;> simp_all)

/-- C38 is violated: when nobody reads the error channel, two failed writes block the sender while it holds the lock:
from then on, whatever happens, no `Send` returns, nothing is written and `End` never returns. -/
theorem C38_write_errors_violated : ∃ es s, History .lfEnded es s ∧ s.crashed = false ∧
    ∀ es' s', (∀ e, .recvErr e ∉ es') → run .lfEnded s es' = some s' →
      wire s' = wire s ∧ s'.endCompleted = false ∧ ∀ m b, m.marshal = .ret (.ok b) → step .lfEnded s' (.send m) = none := by
  refine ⟨[.send (exMsg b!"x"), .tick, .tau, .connect none, .tau, .tau, .write 0 (some (.other 0)), .tau, .tau,
      .tick, .tau, .connect none, .tau, .tau, .write 0 (some (.other 1))],
    ⟨[b!"<14>1 1970-01-01T00:00:00Z h a 1 - - x\n"], [⟨[[]], false⟩, ⟨[[]], false⟩], true, true, [.write 0], false, false, false, false,
      .errWrite false (.write 1)⟩, by decide +kernel, rfl, ?_⟩
  intro es' s' hno hr
  obtain ⟨h1, h2, h3, h4, h5⟩ := stuck_run (Or.inl ⟨_, _, rfl⟩) (by simp) hno hr
  refine ⟨by unfold wire; rw [h5], h4, ?_⟩
  intro m b hm
  simp only [step, hm, h3]
  split <;> rfl

/-- C38 is violated: when nobody reads the error channel, two failed connects (the server is down for two ticks) block
the sender: nothing is ever written again and `End` never returns, even if the server comes back. -/
theorem C38_connect_errors_violated (t : Transport) : ∃ es s, History t es s ∧ s.crashed = false ∧
    ∀ es' s', (∀ e, .recvErr e ∉ es') → run t s es' = some s' → wire s' = [] ∧ s'.endCompleted = false := by
  refine ⟨[.tick, .tau, .connect (some 0), .tau, .tick, .tau, .connect (some 1)],
    ⟨[], [], false, false, [.connect 0], false, false, false, false, .errConn false (.connect 1)⟩, rfl, rfl, ?_⟩
  intro es' s' hno hr
  obtain ⟨h1, h2, h3, h4, h5⟩ := stuck_run (Or.inr ⟨_, _, rfl⟩) (by simp) hno hr
  exact ⟨by unfold wire; rw [h5]; rfl, h4⟩

/-- Upper bound on the number of steps of the sender before it releases the lock. -/
def lockBound (s : State) : Nat :=
  match s.pc with
  | .loop _ => if s.queue = [] then 2 else s.queue.length + 4
  | .write _ k _ => s.queue.length - k + 3
  | .errWrite _ _ => 2
  | .unlock _ => 1
  | _ => 0

theorem lock_step {t : Transport} {fr : List Bytes} {a b : State} {e : Event} (hi : Inv fr a) (hl : a.locked = true)
    (hab : step t a e = some b) :
    (isRunner e = true → lockBound b < lockBound a) ∧ (isRunner e = false → lockBound b = lockBound a) := by
  obtain ⟨_, htr⟩ := step_tr hab
  have hh : holds a.pc = true := by rw [← hi.lock]; exact hl
  cases htr
  case sendOk h => rw [hl] at h; simp at h
  case sendErr => simp [isRunner]
  case sendPanic => simp [isRunner, lockBound]
  case endTwice => simp [isRunner, lockBound]
  case endOnce => simp [isRunner, lockBound]
  case recv => simp [isRunner, lockBound]
  case loopMore f hpc hq =>
    simp only [isRunner, lockBound, hpc, if_neg hq]
    simp
  case loopEnd f hpc hq => simp [isRunner, lockBound, hpc, hq]
  case writeEnd f k n hpc hk =>
    obtain ⟨h1, h2⟩ := hi.pos f k n hpc
    have hke : k = a.queue.length := by omega
    have : consume a.queue n = [] := by
      have aux : ∀ q : List Bytes, consume q q.flatten.length = [] := by
        intro q
        induction q with
        | nil => rfl
        | cons x r ih =>
          unfold consume
          rw [if_neg (by simp), List.flatten_cons, List.length_append, Nat.add_sub_cancel_left, ih]
      rw [h2, hke, List.take_length]; exact aux _
    simp only [isRunner, lockBound, hpc, this, if_true]
    simp
  case writeOk f k n x hpc hx =>
    have hlt : k < a.queue.length := by
      rcases Nat.lt_or_ge k a.queue.length with h1 | h1
      · exact h1
      · rw [List.getElem?_eq_none h1] at hx; simp at hx
    simp only [isRunner, lockBound, hpc]
    simp
    omega
  case writeNobufs f k n nb x hpc hx hle =>
    simp only [isRunner, lockBound, hpc]
    simp
  case writeErr f k n nb e x hpc hx hle =>
    simp only [isRunner, lockBound, hpc]
    simp
  case errWrite f e hpc he => simp [isRunner, lockBound, hpc]
  case unlock f hpc => cases f <;> simp [isRunner, lockBound, hpc, ret]
  all_goals (rename_i hpc; simp_all [holds])

theorem lockBound_le (s : State) : lockBound s ≤ s.queue.length + 4 := by
  unfold lockBound
  split <;> try split
  all_goals omega

/-- C38 (partial): the sender holds the lock (so that `Send` waits) only for a bounded number of its own steps: at most
the number of queued frames plus four, whatever the results of the writes. -/
theorem C38_lock_bound_partial (t : Transport) (es : List Event) (s : State) (h : History t es s) (es' : List Event) (s' : State)
    (hr : run t s es' = some s') (hheld : ∀ pre x, pre <+: es' → run t s pre = some x → x.locked = true) :
    (es'.filter isRunner).length ≤ s.queue.length + 4 := by
  have key : ∀ (es' : List Event) (s : State) (fr : List Bytes), Inv fr s → run t s es' = some s' →
      (∀ pre x, pre <+: es' → run t s pre = some x → x.locked = true) → (es'.filter isRunner).length ≤ lockBound s := by
    intro es'
    induction es' with
    | nil => intros; simp
    | cons e r ih =>
      intro s fr hi hr hheld
      have hl : s.locked = true := hheld [] s (List.nil_prefix) rfl
      simp only [run] at hr
      cases hst : step t s e with
      | none => rw [hst] at hr; simp at hr
      | some x =>
        rw [hst] at hr
        have hx := ih x _ (inv_step hi hst) hr (by
          intro pre y hpre hy
          refine hheld (e :: pre) y (by simpa using hpre) ?_
          simp only [run, hst, Option.bind_some]; exact hy)
        obtain ⟨h1, h2⟩ := lock_step hi hl hst
        cases he : isRunner e with
        | true => have := h1 he; simp only [List.filter_cons, he, if_true, List.length_cons]; omega
        | false =>
          have := h2 he
          simp only [List.filter_cons, he, Bool.false_eq_true, if_false]; omega
  exact Nat.le_trans (key es' s _ (inv_history h) hr hheld) (lockBound_le s)

/-- C38 (partial): while the sender holds the lock it can always make a step, if need be after one receive on the error
channel. Missing: the case where nobody receives, see `C38_write_errors_violated`. -/
theorem C38_lock_progress_partial (t : Transport) (es : List Event) (s : State) (h : History t es s) (hc : s.crashed = false)
    (hl : s.locked = true) :
    (∃ e s1, isRunner e = true ∧ step t s e = some s1) ∨
    ∃ x s1 s2, step t s (.recvErr x) = some s1 ∧ step t s1 .tau = some s2 := by
  have hi := inv_history h
  have hh : holds s.pc = true := by rw [← hi.lock]; exact hl
  obtain ⟨queue, conns, output, locked, errs, endAsked, endCompleted, errClosed, crashed, pc⟩ := s
  simp only at hc hh
  subst hc
  cases pc <;> simp [holds] at hh
  case loop f => exact Or.inl ⟨.tau, _, rfl, rfl⟩
  case unlock f => exact Or.inl ⟨.tau, _, rfl, rfl⟩
  case write f k n =>
    left
    cases hx : queue[k]? with
    | none =>
      have hk : ¬ k < queue.length := by
        intro hlt; rw [List.getElem?_eq_getElem hlt] at hx; simp at hx
      refine ⟨.tau, ⟨consume queue n, conns, output, locked, errs, endAsked, endCompleted, errClosed, false, .loop f⟩, rfl, ?_⟩
      simp only [step, Bool.false_eq_true, if_false, if_neg hk]
    | some b =>
      refine ⟨.write b.length none,
        ⟨queue, addWrite (b.take b.length) conns, output, locked, errs, endAsked, endCompleted, errClosed, false,
          .write f (k + 1) (n + b.length)⟩, rfl, ?_⟩
      simp only [step, Bool.false_eq_true, if_false, hx, Nat.le_refl, if_true]
  case errWrite f e =>
    cases errs with
    | nil => exact Or.inl ⟨.tau, _, rfl, rfl⟩
    | cons x r =>
      right
      have hr : r = [] := by
        have := hi.errs
        simp only [List.length_cons] at this
        exact List.length_eq_zero_iff.mp (by omega)
      subst hr
      refine ⟨x, ⟨queue, conns, output, locked, [], endAsked, endCompleted, errClosed, false, .errWrite f e⟩, _, ?_, rfl⟩
      simp [step]

/-! ### `End` returns when nothing fails -/

/-- Steps of the sender that do not fail, and receives on the error channel. -/
def smooth : Event → Bool
  | .recvErr _ => true
  | .tau => true
  | .connect none => true
  | .write _ none => true
  | _ => false

/-- `s'` can be reached from `s` by smooth steps only. -/
def SmoothTo (t : Transport) (s s' : State) : Prop := ∃ es, (∀ e ∈ es, smooth e = true) ∧ run t s es = some s'

theorem SmoothTo.refl (t : Transport) (s : State) : SmoothTo t s s := ⟨[], by simp, rfl⟩

theorem SmoothTo.trans {t : Transport} {a b c : State} (h1 : SmoothTo t a b) (h2 : SmoothTo t b c) : SmoothTo t a c := by
  obtain ⟨e1, g1, r1⟩ := h1
  obtain ⟨e2, g2, r2⟩ := h2
  refine ⟨e1 ++ e2, ?_, run_append r1 r2⟩
  intro e he
  rcases List.mem_append.mp he with h | h
  · exact g1 e h
  · exact g2 e h

theorem SmoothTo.one {t : Transport} {a b : State} (e : Event) (he : smooth e = true) (h : step t a e = some b) : SmoothTo t a b :=
  ⟨[e], by simpa using he, by simp [run, h]⟩

theorem SmoothTo.cons {t : Transport} {a b c : State} (e : Event) (he : smooth e = true) (h : step t a e = some b) (h2 : SmoothTo t b c) :
    SmoothTo t a c := (SmoothTo.one e he h).trans h2

theorem consume_all (q : List Bytes) : consume q q.flatten.length = [] := by
  induction q with
  | nil => rfl
  | cons x r ih =>
    unfold consume
    rw [if_neg (by simp), List.flatten_cons, List.length_append, Nat.add_sub_cancel_left, ih]

/-- From inside `WriteTo` to the end of `flushQueue`. -/
theorem smooth_write (t : Transport) (f : Bool) (queue : List Bytes) (errs : List SErr) (ea ec : Bool)
    (d : Nat) : ∀ (k : Nat) (conns : List Conn) (output locked ecl : Bool), d = queue.length - k → k ≤ queue.length →
    ∃ conns', SmoothTo t ⟨queue, conns, output, locked, errs, ea, ec, ecl, false, .write f k (queue.take k).flatten.length⟩
      ⟨[], conns', output, false, errs, ea, ec, ecl, false, ret f⟩ := by
  induction d with
  | zero =>
    intro k conns output locked ecl hd hk
    have hke : k = queue.length := by omega
    subst hke
    refine ⟨conns, SmoothTo.cons .tau rfl (b := ⟨[], conns, output, locked, errs, ea, ec, ecl, false, .loop f⟩) ?_
      (SmoothTo.cons .tau rfl (b := ⟨[], conns, output, locked, errs, ea, ec, ecl, false, .unlock f⟩) rfl (SmoothTo.one .tau rfl rfl))⟩
    simp only [step, Bool.false_eq_true, if_false, Nat.lt_irrefl, List.take_length, consume_all]
  | succ d ih =>
    intro k conns output locked ecl hd hk
    have hlt : k < queue.length := by omega
    obtain ⟨conns', h⟩ := ih (k + 1) (addWrite (queue[k].take queue[k].length) conns) output locked ecl (by omega) (by omega)
    refine ⟨conns', SmoothTo.cons (.write queue[k].length none) rfl ?_ h⟩
    simp only [step, Bool.false_eq_true, if_false, List.getElem?_eq_getElem hlt, Nat.le_refl, if_true]
    rw [take_flatten_length_succ queue k queue[k] (List.getElem?_eq_getElem hlt)]

theorem smooth_loop (t : Transport) (f : Bool) (queue : List Bytes) (conns : List Conn) (output locked : Bool) (errs : List SErr)
    (ea ec ecl : Bool) :
    ∃ conns', SmoothTo t ⟨queue, conns, output, locked, errs, ea, ec, ecl, false, .loop f⟩
      ⟨[], conns', output, false, errs, ea, ec, ecl, false, ret f⟩ := by
  by_cases hq : queue = []
  · subst hq
    exact ⟨conns, SmoothTo.cons .tau rfl (b := ⟨[], conns, output, locked, errs, ea, ec, ecl, false, .unlock f⟩) rfl (SmoothTo.one .tau rfl rfl)⟩
  · obtain ⟨conns', h⟩ := smooth_write t f queue errs ea ec (queue.length - 0) 0 conns output locked ecl rfl (by omega)
    refine ⟨conns', SmoothTo.cons .tau rfl ?_ h⟩
    have : queue.length > 0 := List.length_pos_iff.mpr hq
    simp only [step, Bool.false_eq_true, if_false, if_pos this, List.take_zero, List.flatten_nil, List.length_nil]

theorem smooth_lock (t : Transport) (f : Bool) (queue : List Bytes) (conns : List Conn) (output : Bool) (errs : List SErr)
    (ea ec ecl : Bool) :
    ∃ conns', SmoothTo t ⟨queue, conns, output, false, errs, ea, ec, ecl, false, .lock f⟩
      ⟨[], conns', output, false, errs, ea, ec, ecl, false, ret f⟩ := by
  obtain ⟨conns', h⟩ := smooth_loop t f queue conns output true errs ea ec ecl
  exact ⟨conns', SmoothTo.cons .tau rfl rfl h⟩

theorem smooth_connect (t : Transport) (f : Bool) (queue : List Bytes) (conns : List Conn) (output : Bool) (errs : List SErr)
    (ea ec ecl : Bool) :
    ∃ conns', SmoothTo t ⟨queue, conns, output, false, errs, ea, ec, ecl, false, .connect f⟩
      ⟨[], conns', true, false, errs, ea, ec, ecl, false, ret f⟩ := by
  obtain ⟨conns', h⟩ := smooth_lock t f queue (conns ++ [⟨[], false⟩]) true errs ea ec ecl
  exact ⟨conns', SmoothTo.cons (.connect none) rfl rfl h⟩

/-- A whole `flushQueue` where nothing fails. -/
theorem smooth_test (t : Transport) (f : Bool) (queue : List Bytes) (conns : List Conn) (output : Bool) (errs : List SErr)
    (ea ec ecl : Bool) :
    ∃ conns', SmoothTo t ⟨queue, conns, output, false, errs, ea, ec, ecl, false, .test f⟩
      ⟨[], conns', true, false, errs, ea, ec, ecl, false, ret f⟩ := by
  cases output with
  | true =>
    obtain ⟨conns', h⟩ := smooth_lock t f queue conns true errs ea ec ecl
    exact ⟨conns', SmoothTo.cons .tau rfl rfl h⟩
  | false =>
    obtain ⟨conns', h⟩ := smooth_connect t f queue conns false errs ea ec ecl
    exact ⟨conns', SmoothTo.cons .tau rfl rfl h⟩

/-- From anywhere in `flushQueue` to its end. -/
theorem smooth_ret (t : Transport) (fr : List Bytes) (s : State) (hi : Inv fr s) (hc : s.crashed = false) :
    (s.pc = .select ∨ s.pc = .drain ∨ closing s.pc = true) ∨
    ∃ s' f, SmoothTo t s s' ∧ s'.pc = ret f ∧ s'.crashed = false ∧ s'.endAsked = s.endAsked ∧ s'.locked = false ∧ ending s.pc = f := by
  have hl := hi.lock
  have hp := hi.pos
  have he := hi.errs
  obtain ⟨queue, conns, output, locked, errs, endAsked, endCompleted, errClosed, crashed, pc⟩ := s
  simp only at hc hl hp he
  subst hc
  cases pc <;> simp only [closing, or_true, true_or, Bool.false_eq_true, or_false, reduceCtorEq, false_or, ending] <;> try trivial
  case test f =>
    simp only [holds] at hl; subst hl
    obtain ⟨c, h⟩ := smooth_test t f queue conns output errs endAsked endCompleted errClosed
    exact ⟨_, f, h, rfl, rfl, rfl, rfl, rfl⟩
  case connect f =>
    simp only [holds] at hl; subst hl
    obtain ⟨c, h⟩ := smooth_connect t f queue conns output errs endAsked endCompleted errClosed
    exact ⟨_, f, h, rfl, rfl, rfl, rfl, rfl⟩
  case lock f =>
    simp only [holds] at hl; subst hl
    obtain ⟨c, h⟩ := smooth_lock t f queue conns output errs endAsked endCompleted errClosed
    exact ⟨_, f, h, rfl, rfl, rfl, rfl, rfl⟩
  case loop f =>
    obtain ⟨c, h⟩ := smooth_loop t f queue conns output locked errs endAsked endCompleted errClosed
    exact ⟨_, f, h, rfl, rfl, rfl, rfl, rfl⟩
  case write f k n =>
    obtain ⟨h1, h2⟩ := hp f k n rfl
    subst h2
    obtain ⟨c, h⟩ := smooth_write t f queue errs endAsked endCompleted (queue.length - k) k conns output locked errClosed rfl h1
    exact ⟨_, f, h, rfl, rfl, rfl, rfl, rfl⟩
  case unlock f =>
    exact ⟨⟨queue, conns, output, false, errs, endAsked, endCompleted, errClosed, false, ret f⟩, f, SmoothTo.one .tau rfl rfl,
      rfl, rfl, rfl, rfl, rfl⟩
  case errConn f e =>
    simp only [holds] at hl; subst hl
    have hfree : SmoothTo t ⟨queue, conns, output, false, [], endAsked, endCompleted, errClosed, false, .errConn f e⟩
      ⟨queue, conns, output, false, [e], endAsked, endCompleted, errClosed, false, ret f⟩ := SmoothTo.one .tau rfl rfl
    rcases errs with _ | ⟨x, r⟩
    · exact ⟨_, f, hfree, rfl, rfl, rfl, rfl, rfl⟩
    · have hr : r = [] := List.length_eq_zero_iff.mp (by simp only [List.length_cons] at he; omega)
      subst hr
      exact ⟨_, f, SmoothTo.cons (.recvErr x) rfl (by simp [step]) hfree, rfl, rfl, rfl, rfl, rfl⟩
  case errWrite f e =>
    have hfree : SmoothTo t ⟨queue, conns, output, locked, [], endAsked, endCompleted, errClosed, false, .errWrite f e⟩
      ⟨queue, conns, false, false, [e], endAsked, endCompleted, errClosed, false, ret f⟩ :=
      SmoothTo.cons .tau rfl (b := ⟨queue, conns, false, locked, [e], endAsked, endCompleted, errClosed, false, .unlock f⟩) rfl
        (SmoothTo.one .tau rfl rfl)
    rcases errs with _ | ⟨x, r⟩
    · exact ⟨_, f, hfree, rfl, rfl, rfl, rfl, rfl⟩
    · have hr : r = [] := List.length_eq_zero_iff.mp (by simp only [List.length_cons] at he; omega)
      subst hr
      exact ⟨_, f, SmoothTo.cons (.recvErr x) rfl (by simp [step]) hfree, rfl, rfl, rfl, rfl, rfl⟩

/-- C38 (partial): from every moment of every history after `End` was called, if nothing fails any more and errors are
received, `End` can return, or the program crashes because there is no connection (`C36_end_violated`); no other
outcome blocks it. -/
theorem C38_end_returns_partial (t : Transport) (es : List Event) (s : State) (h : History t es s) (hc : s.crashed = false)
    (ha : s.endAsked = true) :
    ∃ es' s', (∀ e ∈ es', e = .seeEnd ∨ smooth e = true) ∧ run t s es' = some s' ∧
      (s'.endCompleted = true ∨ (s'.crashed = true ∧ s'.output = false)) := by
  have hi := inv_history h
  -- the closing phase
  have hclose : ∀ s : State, s.crashed = false → closing s.pc = true → (s.pc = .closeErr ∨ s.pc = .done → s.endCompleted = true) →
      ∃ es' s', (∀ e ∈ es', e = .seeEnd ∨ smooth e = true) ∧ run t s es' = some s' ∧
        (s'.endCompleted = true ∨ (s'.crashed = true ∧ s'.output = false)) := by
    intro s hc hcl hdone
    obtain ⟨queue, conns, output, locked, errs, endAsked, endCompleted, errClosed, crashed, pc⟩ := s
    simp only at hc hcl hdone
    subst hc
    cases pc <;> simp [closing] at hcl
    case closeOut =>
      cases output with
      | true =>
        exact ⟨[.tau, .tau], ⟨queue, closeLast conns, true, locked, errs, endAsked, true, errClosed, false, .closeErr⟩,
          by simp [smooth], rfl, Or.inl rfl⟩
      | false => exact ⟨[.tau], ⟨queue, conns, false, locked, errs, endAsked, endCompleted, errClosed, true, .closeOut⟩,
          by simp [smooth], rfl, Or.inr ⟨rfl, rfl⟩⟩
    case closeDone =>
      exact ⟨[.tau], ⟨queue, conns, output, locked, errs, endAsked, true, errClosed, false, .closeErr⟩, by simp [smooth], rfl, Or.inl rfl⟩
    case closeErr => exact ⟨[], _, by simp, rfl, Or.inl (hdone (Or.inl rfl))⟩
    case done => exact ⟨[], _, by simp, rfl, Or.inl (hdone (Or.inr rfl))⟩
  have hcons : ∀ (s x s' : State) (e1 e2 : List Event), (∀ e ∈ e1, e = .seeEnd ∨ smooth e = true) → run t s e1 = some x →
      (∀ e ∈ e2, e = .seeEnd ∨ smooth e = true) → run t x e2 = some s' →
      (∀ e ∈ e1 ++ e2, e = .seeEnd ∨ smooth e = true) ∧ run t s (e1 ++ e2) = some s' := by
    intro s x s' e1 e2 g1 r1 g2 r2
    refine ⟨?_, run_append r1 r2⟩
    intro e he
    rcases List.mem_append.mp he with h | h
    · exact g1 e h
    · exact g2 e h
  -- from the deferred function
  have hdrain : ∀ s : State, s.crashed = false → s.pc = .drain → s.locked = false →
      ∃ es' s', (∀ e ∈ es', e = .seeEnd ∨ smooth e = true) ∧ run t s es' = some s' ∧
        (s'.endCompleted = true ∨ (s'.crashed = true ∧ s'.output = false)) := by
    intro s hc hpc hl
    obtain ⟨queue, conns, output, locked, errs, endAsked, endCompleted, errClosed, crashed, pc⟩ := s
    simp only at hc hpc hl
    subst hc; subst hpc; subst hl
    by_cases hq : queue = []
    · subst hq
      obtain ⟨e2, s', g2, r2, ho⟩ := hclose ⟨[], conns, output, false, errs, endAsked, endCompleted, errClosed, false, .closeOut⟩ rfl rfl (by simp)
      obtain ⟨g, r⟩ := hcons ⟨[], conns, output, false, errs, endAsked, endCompleted, errClosed, false, .drain⟩ _ s' [.tau] e2 (by simp [smooth]) rfl g2 r2
      exact ⟨_, s', g, r, ho⟩
    · obtain ⟨conns', es1, g1, r1⟩ := smooth_test t true queue conns output errs endAsked endCompleted errClosed
      obtain ⟨e2, s', g2, r2, ho⟩ := hclose ⟨[], conns', true, false, errs, endAsked, endCompleted, errClosed, false, .closeOut⟩ rfl rfl (by simp)
      obtain ⟨ga, ra⟩ := hcons ⟨[], conns', true, false, errs, endAsked, endCompleted, errClosed, false, .drain⟩ _ s' [.tau] e2 (by simp [smooth]) rfl g2 r2
      obtain ⟨gb, rb⟩ := hcons ⟨queue, conns, output, false, errs, endAsked, endCompleted, errClosed, false, .test true⟩ _ s' es1 _
        (fun e he => Or.inr (g1 e he)) r1 ga ra
      obtain ⟨gc, rc⟩ := hcons ⟨queue, conns, output, false, errs, endAsked, endCompleted, errClosed, false, .drain⟩
        ⟨queue, conns, output, false, errs, endAsked, endCompleted, errClosed, false, .test true⟩ s' [.tau] _ (by simp [smooth])
        (by
          have : queue.length > 0 := List.length_pos_iff.mpr hq
          simp only [run, step, Bool.false_eq_true, if_false, if_pos this, Option.bind_some]) gb rb
      exact ⟨_, s', gc, rc, ho⟩
  -- from the select
  have hselect : ∀ s : State, s.crashed = false → s.endAsked = true → s.pc = .select → s.locked = false →
      ∃ es' s', (∀ e ∈ es', e = .seeEnd ∨ smooth e = true) ∧ run t s es' = some s' ∧
        (s'.endCompleted = true ∨ (s'.crashed = true ∧ s'.output = false)) := by
    intro s hc ha hpc hl
    obtain ⟨e2, s', g2, r2, ho⟩ := hdrain { s with pc := .drain } hc rfl hl
    obtain ⟨g, r⟩ := hcons s { s with pc := .drain } s' [.seeEnd] e2 (by simp) (by
      simp [run, step, hc, hpc, ha]) g2 r2
    exact ⟨_, s', g, r, ho⟩
  rcases smooth_ret t _ s hi hc with (hpc | hpc | hpc) | ⟨x, f, ⟨e1, g1, r1⟩, hpc, hcx, hax, hlx, _⟩
  · exact hselect s hc ha hpc (by rw [hi.lock, hpc]; rfl)
  · exact hdrain s hc hpc (by rw [hi.lock, hpc]; rfl)
  · refine hclose s hc hpc ?_
    intro hd
    rw [hi.comp]
    rcases hd with hd | hd <;> rw [hd] <;> rfl
  · have hrest : ∃ es' s', (∀ e ∈ es', e = .seeEnd ∨ smooth e = true) ∧ run t x es' = some s' ∧
        (s'.endCompleted = true ∨ (s'.crashed = true ∧ s'.output = false)) := by
      cases f with
      | true => exact hdrain x hcx hpc hlx
      | false => exact hselect x hcx (by rw [hax]; exact ha) hpc hlx
    obtain ⟨e2, s', g2, r2, ho⟩ := hrest
    obtain ⟨g, r⟩ := hcons s x s' e1 e2 (fun e he => Or.inr (g1 e he)) r1 g2 r2
    exact ⟨_, s', g, r, ho⟩

/-! ## C39 -/

/-- Inside a `flushQueue` called by the ticker that will still look at the queue. -/
def flushing : PC → Bool
  | .test false => true
  | .connect false => true
  | .lock false => true
  | .loop false => true
  | .write false _ _ => true
  | _ => false

/-- C39: if the sender takes a tick, and later another tick, and nothing failed in between, then everything that was
accepted before the first tick is written (whatever happened before, in particular failed connects and writes). -/
theorem C39_flush (t : Transport) (before mid : List Event) (s : State)
    (h : History t (before ++ .tick :: mid ++ [.tick]) s) (hok : ∀ e ∈ mid, fails e = false) :
    (frames t before).flatten <+: wire s := by
  rw [List.append_assoc] at h
  obtain ⟨s1, h1, h2⟩ := run_split h
  have hi1 := inv_history h1
  simp only [List.cons_append, run] at h2
  cases hst : step t s1 .tick with
  | none => rw [hst] at h2; simp at h2
  | some s2 =>
    rw [hst] at h2
    simp only [Option.bind_some] at h2
    obtain ⟨s3, h3, h4⟩ := run_split h2
    have hi2 := inv_step hi1 hst
    have key : (∃ fr, Inv (frames t before ++ fr) s3) ∧
        (flushing s3.pc = true ∨ (frames t before).flatten <+: wireOf s3.conns) := by
      refine run_induct (P := fun s => (∃ fr, Inv (frames t before ++ fr) s) ∧
        (flushing s.pc = true ∨ (frames t before).flatten <+: wireOf s.conns)) h3 ⟨⟨_, hi2⟩, Or.inl ?_⟩ ?_
      · obtain ⟨_, htr⟩ := step_tr hst
        cases htr; rfl
      · intro a e b hmem hp hab
        obtain ⟨⟨fr, hi⟩, hcl⟩ := hp
        have hi' := inv_step hi hab
        rw [List.append_assoc] at hi'
        refine ⟨⟨_, hi'⟩, ?_⟩
        rcases hcl with hfl | hw
        · have hnf := hok e hmem
          clear hmem
          obtain ⟨_, htr⟩ := step_tr hab
          cases htr
          case loopEnd f hpc hq =>
            right
            have hd := hi'.data
            simp only [pend, List.drop_zero, hq, List.flatten_nil, List.append_nil] at hd
            show _ <+: wireOf a.conns
            rw [hd, List.flatten_append]
            exact List.prefix_append _ _
          case sendOk => exact Or.inl hfl
          case sendErr => exact Or.inl hfl
          case sendPanic => exact Or.inl hfl
          case endOnce => exact Or.inl hfl
          case endTwice => exact Or.inl hfl
          case recv => exact Or.inl hfl
          case testOut f hpc _ => rw [hpc] at hfl; cases f <;> simp [flushing] at hfl; exact Or.inl rfl
          case testNil f hpc _ => rw [hpc] at hfl; cases f <;> simp [flushing] at hfl; exact Or.inl rfl
          case connOk f hpc => rw [hpc] at hfl; cases f <;> simp [flushing] at hfl; exact Or.inl rfl
          case lock f hpc _ => rw [hpc] at hfl; cases f <;> simp [flushing] at hfl; exact Or.inl rfl
          case loopMore f hpc _ => rw [hpc] at hfl; cases f <;> simp [flushing] at hfl; exact Or.inl rfl
          case writeEnd f k n hpc _ => rw [hpc] at hfl; cases f <;> simp [flushing] at hfl; exact Or.inl rfl
          case writeOk f k n x hpc _ => rw [hpc] at hfl; cases f <;> simp [flushing] at hfl; exact Or.inl rfl
          case connErr => simp [fails] at hnf
          case writeNobufs => simp [fails] at hnf
          case writeErr => simp [fails] at hnf
          all_goals
            exfalso
            first
              | (rename_i hpc; rw [hpc] at hfl; simp [flushing] at hfl; done)
              | (rename_i hpc _; rw [hpc] at hfl; simp [flushing] at hfl; done)
        · exact Or.inr (hw.trans (step_wire hab))
    have hlast := run_wire h4
    simp only [run] at h4
    cases hst4 : step t s3 .tick with
    | none => rw [hst4] at h4; simp at h4
    | some s4 =>
      obtain ⟨_, htr⟩ := step_tr hst4
      cases htr with
      | tick hpc =>
        rcases key.2 with hf | hw
        · rw [hpc] at hf; simp [flushing] at hf
        · exact hw.trans hlast

/-- C39: and from every moment of every history where the sender waits for a tick, one tick and steps that do not fail
lead to the moment where everything accepted is written and the next tick can be taken. -/
theorem C39_progress (t : Transport) (es : List Event) (s : State) (h : History t es s) (hc : s.crashed = false) (hpc : s.pc = .select) :
    ∃ mid s', (∀ e ∈ mid, smooth e = true) ∧ History t (es ++ .tick :: mid) s' ∧ wire s' = (frames t es).flatten ∧
      (step t s' .tick).isSome = true := by
  have hi := inv_history h
  have hl := hi.lock
  have hlast : ∀ mid, (∀ e ∈ mid, smooth e = true) → frames t mid = [] := by
    intro mid
    induction mid with
    | nil => intro _; rfl
    | cons e r ih =>
      intro hg
      have he := hg e (by simp)
      have := ih fun x hx => hg x (by simp [hx])
      cases e <;> simp [smooth] at he <;> exact this
  obtain ⟨queue, conns, output, locked, errs, endAsked, endCompleted, errClosed, crashed, pc⟩ := s
  simp only at hc hpc hl
  subst hc; subst hpc
  simp only [holds] at hl
  subst hl
  obtain ⟨conns', mid, g, r⟩ := smooth_test t false queue conns output errs endAsked endCompleted errClosed
  have hh : History t (es ++ .tick :: mid) ⟨[], conns', true, false, errs, endAsked, endCompleted, errClosed, false, .select⟩ := by
    refine run_append h ?_
    simp only [run, step, Bool.false_eq_true, if_false, Option.bind_some]
    exact r
  refine ⟨mid, _, g, hh, ?_, rfl⟩
  have := (inv_history hh).data
  rw [frames_append, frames_cons, hlast mid g] at this
  simpa [pend, frames, wireOf, wire] using this

/-- C39: after `End` has returned nothing is ever written. -/
theorem C39_after_end (t : Transport) (es es' : List Event) (s s' : State) (h : History t es s) (hend : s.endCompleted = true)
    (hr : run t s es' = some s') : wire s' = wire s ∧ s'.conns = s.conns := by
  have hi := inv_history h
  have hpc : s.pc = .closeErr ∨ s.pc = .done := by
    have := hi.comp
    rw [hend] at this
    revert this
    cases s.pc <;> simp
  have := run_induct (P := fun x => x.conns = s.conns ∧ (x.pc = .closeErr ∨ x.pc = .done)) hr ⟨rfl, hpc⟩ (by
    intro a e b hmem hp hab
    clear hmem
    obtain ⟨h1, h2⟩ := hp
    obtain ⟨_, htr⟩ := step_tr hab
    cases htr
    case closeErr => exact ⟨h1, Or.inr rfl⟩
    all_goals first
      | exact ⟨h1, h2⟩
      | (exfalso; clear h1; rcases h2 with h2 | h2 <;> simp_all))
  exact ⟨by unfold wire; rw [this.1], this.1⟩

/-- C39 is violated: a message accepted while `End` is running, before it returns, can be lost: here `Send` of the
second message is accepted (it returns no error) after the last look at the queue, and the message is never written. And
`Send` after `End` is accepted in the same way, with no error. -/
theorem C39_lost_violated : ∃ es s0 s1, History .lfEnded es s0 ∧ s0.endCompleted = false ∧ s0.crashed = false ∧
    step .lfEnded s0 (.send (exMsg b!"y")) = some s1 ∧
    (∀ es' s', run .lfEnded s1 es' = some s' → wire s' = b!"<14>1 1970-01-01T00:00:00Z h a 1 - - x\n") ∧
    ∃ es' s', run .lfEnded s1 es' = some s' ∧ s'.endCompleted = true := by
  refine ⟨[.send (exMsg b!"x"), .endCall, .seeEnd, .tau, .tau, .connect none, .tau, .tau, .write 39 none, .tau, .tau, .tau, .tau],
    ⟨[], [⟨[b!"<14>1 1970-01-01T00:00:00Z h a 1 - - x\n"], false⟩], true, false, [], true, false, false, false, .closeOut⟩,
    ⟨[b!"<14>1 1970-01-01T00:00:00Z h a 1 - - y\n"], [⟨[b!"<14>1 1970-01-01T00:00:00Z h a 1 - - x\n"], false⟩], true, false, [], true, false,
      false, false, .closeOut⟩, by decide +kernel, rfl, rfl, by decide +kernel, ?_, [.tau, .tau], _, rfl, rfl⟩
  intro es' s' hr
  have := run_induct (P := fun x => wireOf x.conns = b!"<14>1 1970-01-01T00:00:00Z h a 1 - - x\n" ∧ closing x.pc = true) hr ⟨rfl, rfl⟩ (by
    intro a e b hmem hp hab
    clear hmem
    obtain ⟨h1, h2⟩ := hp
    obtain ⟨_, htr⟩ := step_tr hab
    cases htr
    case closeOut hpc ho => exact ⟨by rw [wireOf_closeLast]; exact h1, rfl⟩
    case closeDone => exact ⟨h1, rfl⟩
    case closeErr => exact ⟨h1, rfl⟩
    all_goals first
      | exact ⟨h1, h2⟩
      | (exfalso
         first
           | (rename_i hpc; rw [hpc] at h2; simp [closing] at h2; done)
           | (rename_i hpc _; rw [hpc] at h2; simp [closing] at h2; done)
           | (rename_i hpc _ _; rw [hpc] at h2; simp [closing] at h2; done)))
  exact this.1

/-! ## C58 -/

/-- C58 is violated: after a failed write the old connection is dropped without being closed: when `End` returns it is
still open. -/
theorem C58_leak_violated : ∃ es s, History .lfEnded es s ∧ s.endCompleted = true ∧ s.crashed = false ∧ ∃ c ∈ s.conns, c.closed = false :=
  ⟨exHistory ++ [.write 29 none, .tau, .tau, .tau, .endCall, .seeEnd, .tau, .tau, .tau],
    ⟨[], [⟨[b!"<14>1 1970"], false⟩, ⟨[b!"-01-01T00:00:00Z h a 1 - - x\n"], true⟩], true, false, [.write 0], true, true, false, false, .closeErr⟩,
    by decide +kernel, rfl, rfl, ⟨[b!"<14>1 1970"], false⟩, by simp, rfl⟩

theorem closed_closeLast (cs : List Conn) (h : cs.length ≤ 1) : ∀ c ∈ closeLast cs, c.closed = true := by
  rcases cs with _ | ⟨c, _ | ⟨d, r⟩⟩
  · simp [closeLast]
  · simp [closeLast]
  · simp at h

theorem addWrite_length (d : Bytes) (cs : List Conn) : (addWrite d cs).length = cs.length := by
  induction cs with
  | nil => rfl
  | cons c r ih =>
    cases r with
    | nil => rfl
    | cons c' r' => simp only [addWrite, List.length_cons] at ih ⊢; omega

theorem closeLast_length (cs : List Conn) : (closeLast cs).length = cs.length := by
  induction cs with
  | nil => rfl
  | cons c r ih =>
    cases r with
    | nil => rfl
    | cons c' r' => simp only [closeLast, List.length_cons] at ih ⊢; omega

/-- At most one connection, closed in the end. -/
structure Tidy (x : State) : Prop where
  one : x.conns.length ≤ 1
  nil : x.output = false → x.conns = []
  conn : ∀ f, x.pc = .connect f → x.output = false
  noErr : ∀ f e, x.pc ≠ .errWrite f e
  closed : (x.pc = .closeDone ∨ x.pc = .closeErr ∨ x.pc = .done) → ∀ c ∈ x.conns, c.closed = true

theorem tidy_step {t : Transport} {fr : List Bytes} {a b : State} {e : Event} (hi : Inv fr a)
    (hne : ∀ nb e', e = .write nb (some (.other e')) → False) (hp : Tidy a) (hab : step t a e = some b) : Tidy b := by
  obtain ⟨h1, h2, h3, h4, h5⟩ := hp
  have hneed := hi.need
  obtain ⟨hcr, htr⟩ := step_tr hab
  clear hab hi hcr
  cases htr
  case writeErr => exact absurd rfl (hne _ _)
  case errWrite f e hpc he => exact absurd hpc (h4 _ _)
  case connOk f hpc =>
    have := h2 (h3 f hpc)
    refine ⟨by simp [this], by simp, by simp, by simp, by simp⟩
  case closeOut hpc ho =>
    refine ⟨by rw [closeLast_length]; exact h1, ?_, by simp, by simp, fun _ => closed_closeLast _ h1⟩
    intro hx; simp only at hx; rw [ho] at hx; simp at hx
  case testNil f hpc ho => exact ⟨h1, h2, fun _ _ => ho, by simp, by simp⟩
  case writeOk f k n x hpc hx =>
    have ho := hneed (by rw [hpc]; rfl)
    refine ⟨by rw [addWrite_length]; exact h1, ?_, by simp, by simp, by simp⟩
    intro hx; simp only at hx; rw [ho] at hx; simp at hx
  case writeNobufs f k n nb x hpc hx hle =>
    have ho := hneed (by rw [hpc]; rfl)
    refine ⟨by rw [addWrite_length]; exact h1, ?_, by simp, by simp, by simp⟩
    intro hx; simp only at hx; rw [ho] at hx; simp at hx
  case errConn f e hpc he => cases f <;> exact ⟨h1, h2, by simp [ret], by simp [ret], by simp [ret]⟩
  case unlock f hpc => cases f <;> exact ⟨h1, h2, by simp [ret], by simp [ret], by simp [ret]⟩
  case closeDone hpc => exact ⟨h1, h2, by simp, by simp, fun _ => h5 (Or.inl hpc)⟩
  case closeErr hpc => exact ⟨h1, h2, by simp, by simp, fun _ => h5 (Or.inr (Or.inl hpc))⟩
  all_goals first
    | exact ⟨h1, h2, h3, h4, h5⟩
    | exact ⟨h1, h2, by simp, by simp, by simp⟩

theorem tidy_run {t : Transport} {fr : List Bytes} {a b : State} {es : List Event}
    (hok : ∀ nb e, .write nb (some (.other e)) ∉ es) (hi : Inv fr a) (hp : Tidy a) (hab : run t a es = some b) : Tidy b := by
  induction es generalizing a fr with
  | nil => simp only [run, Option.some.injEq] at hab; subst hab; exact hp
  | cons e r ih =>
    simp only [run] at hab
    cases hst : step t a e with
    | none => rw [hst] at hab; simp at hab
    | some x =>
      rw [hst] at hab
      exact ih (fun nb e' hx => hok nb e' (by simp [hx])) (inv_step hi hst)
        (tidy_step hi (fun nb e' he => hok nb e' (by simp [he])) hp hst) hab

/-- C58 (partial): if no write fails (other than with `ENOBUFS`), every connection that was opened is closed when `End`
returns. -/
theorem C58_closed_partial (t : Transport) (es : List Event) (s : State) (h : History t es s) (hend : s.endCompleted = true)
    (hok : ∀ nb e, .write nb (some (.other e)) ∉ es) : ∀ c ∈ s.conns, c.closed = true := by
  have ht := tidy_run hok inv_init ⟨by simp [init], by simp [init], by simp [init], by simp [init], by simp [init]⟩ h
  apply ht.closed
  have := (inv_history h).comp
  rw [hend] at this
  revert this
  cases s.pc <;> simp

example : ∀ nb e, Event.write nb (some (.other e)) ∉ exEnd := by simp [exEnd]

/-! ## C59 -/

/-- The error that `runQueue` is about to report. -/
def pendErr : PC → List SErr
  | .errConn _ e => [e]
  | .errWrite _ e => [e]
  | _ => []

theorem errors_cons (e : Event) (es : List Event) : errors (e :: es) = errors [e] ++ errors es := by
  rcases e with _ | _ | _ | _ | _ | (_ | _) | ⟨_, (_ | (_ | _))⟩ | _ <;> rfl

theorem received_cons (e : Event) (es : List Event) : received (e :: es) = received [e] ++ received es := by
  cases e <;> rfl

theorem errs_run {t : Transport} {a b : State} {es : List Event} {er re : List SErr}
    (hp : er = re ++ a.errs ++ pendErr a.pc) (hab : run t a es = some b) :
    er ++ errors es = re ++ received es ++ b.errs ++ pendErr b.pc := by
  induction es generalizing a er re with
  | nil => simp only [run, Option.some.injEq] at hab; subst hab; simpa [errors, received] using hp
  | cons e r ih =>
    simp only [run] at hab
    cases hst : step t a e with
    | none => rw [hst] at hab; simp at hab
    | some x =>
      rw [hst] at hab
      rw [errors_cons, received_cons, ← List.append_assoc, ← List.append_assoc]
      refine ih ?_ hab
      obtain ⟨_, htr⟩ := step_tr hst
      clear hst hab ih
      cases htr
      case recv e r he => simp only [errors, received, List.append_nil]; rw [hp, he]; simp
      case connErr f e hpc => rw [hpc] at hp; simp [errors, received, hp, pendErr]
      case writeErr f k n nb e x hpc hx hle => rw [hpc] at hp; simp [errors, received, hp, pendErr]
      case writeOk f k n x hpc hx => rw [hpc] at hp; simp [errors, received, hp, pendErr]
      case writeNobufs f k n nb x hpc hx hle => rw [hpc] at hp; simp [errors, received, hp, pendErr]
      case errConn f e hpc he => rw [hpc] at hp; cases f <;> simp [errors, received, hp, pendErr, he, ret]
      case errWrite f e hpc he => rw [hpc] at hp; simp [errors, received, hp, pendErr, he]
      case unlock f hpc => rw [hpc] at hp; cases f <;> simp [errors, received, hp, pendErr, ret]
      case connOk f hpc => rw [hpc] at hp; simp [errors, received, hp, pendErr]
      all_goals
        simp only [errors, received, List.append_nil]
        first
          | exact hp
          | (rename_i hpc _; rw [hpc] at hp; exact hp)
          | (rename_i hpc; rw [hpc] at hp; exact hp)

/-- C59: at every moment of every history, the failed connects and writes (except `ENOBUFS`), in order, are the errors
received on the error channel, then those in the channel, then the one the sender is about to report: none is lost,
invented or reordered. -/
theorem C59_reported (t : Transport) (es : List Event) (s : State) (h : History t es s) :
    errors es = received es ++ s.errs ++ (match s.pc with | .errConn _ e => [e] | .errWrite _ e => [e] | _ => []) := by
  have := errs_run (er := []) (re := []) (by simp [init, pendErr]) h
  simpa [pendErr] using this

/-- C59: when `End` has returned, every error was received or is in the channel. -/
theorem C59_after_end (t : Transport) (es : List Event) (s : State) (h : History t es s) (hend : s.endCompleted = true) :
    errors es = received es ++ s.errs := by
  have h1 := C59_reported t es s h
  have := (inv_history h).comp
  rw [hend] at this
  revert this h1
  cases s.pc <;> simp

example : errors exHistory = [.write 0] := rfl

end Syslog5424
