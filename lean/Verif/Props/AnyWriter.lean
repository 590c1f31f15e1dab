import Verif.Spec.AnyWriter
import Verif.Lemmas.Sender
import Verif.Props.Sender
import Verif.Props.UserConn
/-! # C109: writers that break the contract of `io.Writer` -/
namespace Syslog5424
open Sender Spec

theorem wstep_any {t : Transport} {s s' : State} {nb : Nat} {r : Option WErr} (h : wstep t s (.any nb r) = some s') :
    s.crashed = false ∧ ∃ fin k n b, s.pc = .write fin k n ∧ s.queue[k]? = some b ∧
      ((r = none ∧ s' = { s with conns := addWrite (b.take nb) s.conns, pc := .write fin (k + 1) (n + nb) }) ∨
       (r = some .nobufs ∧ s' = { s with conns := addWrite (b.take nb) s.conns, queue := consume s.queue (n + nb), pc := .unlock fin }) ∨
       (∃ e, r = some (.other e) ∧ s' = { s with conns := addWrite (b.take nb) s.conns, queue := consume s.queue (n + nb), pc := .errWrite fin (.write e) })) := by
  unfold wstep at h
  cases hc : s.crashed with
  | true => simp [hc] at h
  | false =>
    simp only [hc, Bool.false_eq_true, if_false] at h
    refine ⟨rfl, ?_⟩
    split at h
    · rename_i fin k n hpc
      cases hb : s.queue[k]? with
      | none => simp [hb] at h
      | some b =>
        simp only [hb] at h
        refine ⟨fin, k, n, b, hpc, hb, ?_⟩
        cases r with
        | none => simp only [Option.some.injEq] at h; exact Or.inl ⟨rfl, h.symm⟩
        | some w =>
          cases w with
          | nobufs => simp only [Option.some.injEq] at h; exact Or.inr (Or.inl ⟨rfl, h.symm⟩)
          | other e => simp only [Option.some.injEq] at h; exact Or.inr (Or.inr ⟨e, rfl, h.symm⟩)
    · simp at h

/-! ### Counting -/

/-- As many bytes as were sent are on the wire or in the queue. -/
structure Counts (total : Nat) (s : State) : Prop where
  cnt : (wireOf s.conns).length + s.queue.flatten.length = total + pend s.pc
  pos : ∀ f k n, s.pc = .write f k n → k ≤ s.queue.length ∧ n ≤ (s.queue.take k).flatten.length
  out : s.output = true → s.conns ≠ []
  need : needsOut s.pc = true → s.output = true

theorem pend_ret (f : Bool) : pend (ret f) = 0 := by cases f <;> rfl
theorem needsOut_ret (f : Bool) : needsOut (ret f) = false := by cases f <;> rfl
theorem ret_write (f f' : Bool) (k n : Nat) : ret f ≠ .write f' k n := by cases f <;> simp [ret]

theorem take_flatten_le (q : List Bytes) (k : Nat) : (q.take k).flatten.length ≤ q.flatten.length := by
  have h : q.flatten = (q.take k).flatten ++ (q.drop k).flatten := by rw [← List.flatten_append, List.take_append_drop]
  rw [h, List.length_append]; omega

theorem addWrite_ne {d : Bytes} {cs : List Conn} (h : cs ≠ []) : addWrite d cs ≠ [] := by
  cases cs with
  | nil => exact absurd rfl h
  | cons c r => cases r <;> simp [addWrite]

theorem closeLast_ne {cs : List Conn} (h : cs ≠ []) : closeLast cs ≠ [] := by
  cases cs with
  | nil => exact absurd rfl h
  | cons c r => cases r <;> simp [closeLast]

/-- One `Write` of at most what it was given. -/
theorem counts_write {total : Nat} {s : State} (h : Counts total s) {f : Bool} {k n nb : Nat} {b : Bytes} (hpc : s.pc = .write f k n)
    (hb : s.queue[k]? = some b) (hnb : nb ≤ b.length) :
    (wireOf (addWrite (b.take nb) s.conns)).length + s.queue.flatten.length = total + (n + nb) ∧ addWrite (b.take nb) s.conns ≠ [] ∧
      k + 1 ≤ s.queue.length ∧ n + nb ≤ (s.queue.take (k + 1)).flatten.length := by
  have hne := h.out (h.need (by rw [hpc]; rfl))
  have hc := h.cnt
  obtain ⟨p1, p2⟩ := h.pos f k n hpc
  have hlt : k < s.queue.length := by
    rcases Nat.lt_or_ge k s.queue.length with h1 | h1
    · exact h1
    · rw [List.getElem?_eq_none h1] at hb; simp at hb
  rw [wireOf_addWrite _ _ hne, List.length_append, List.length_take, Nat.min_eq_left hnb, take_flatten_length_succ _ _ _ hb]
  rw [hpc] at hc
  simp only [pend] at hc
  exact ⟨by omega, addWrite_ne hne, hlt, by omega⟩

/-- The end of a `WriteTo`. -/
theorem counts_consume {total : Nat} {q : List Bytes} {w : Nat} {n k : Nat} (h : w + q.flatten.length = total + n) (hn : n ≤ (q.take k).flatten.length) :
    w + (consume q n).flatten.length = total := by
  have := take_flatten_le q k
  rw [consume_flatten, List.length_drop]
  omega

theorem counts_step {t : Transport} {total : Nat} {s s' : State} {e : WEvent} (h : Counts total s) (hs : wstep t s e = some s')
    (hw : ∀ nb w, e = .any nb w → ∀ fin k n b, s.pc = .write fin k n → s.queue[k]? = some b → nb ≤ b.length) :
    Counts (total + (frames t (keepingOf [e])).flatten.length) s' := by
  cases e with
  | any nb r =>
    obtain ⟨_, fin, k, n, b, hpc, hb, hcase⟩ := wstep_any hs
    have hnb := hw nb r rfl fin k n b hpc hb
    obtain ⟨c1, c2, c3, c4⟩ := counts_write h hpc hb hnb
    have hn := h.need (by rw [hpc]; rfl)
    rcases hcase with ⟨_, rfl⟩ | ⟨_, rfl⟩ | ⟨e, _, rfl⟩
    · refine ⟨?_, ?_, fun _ => c2, fun _ => hn⟩
      · simpa [keepingOf, frames, pend] using c1
      · intro f' k' n' he
        simp only [PC.write.injEq] at he
        obtain ⟨_, rfl, rfl⟩ := he
        exact ⟨c3, c4⟩
    · refine ⟨?_, by simp, fun _ => c2, fun _ => hn⟩
      simpa [keepingOf, frames, pend] using counts_consume c1 c4
    · refine ⟨?_, by simp, fun _ => c2, fun _ => hn⟩
      simpa [keepingOf, frames, pend] using counts_consume c1 c4
  | std e =>
    obtain ⟨hcr, htr⟩ := step_tr (show step t s e = some s' from hs)
    have hc := h.cnt
    have ho := h.out
    have hn := h.need
    cases htr with
    | sendOk hm hl =>
      refine ⟨?_, ?_, ho, hn⟩
      · simp only [keepingOf, List.filterMap_cons, List.filterMap_nil, frames, hm, List.flatten_append, List.length_append, List.flatten_cons, List.flatten_nil,
          List.append_nil]
        omega
      · intro f k n he
        obtain ⟨p1, p2⟩ := h.pos f k n he
        simp only [List.length_append]
        rw [List.take_append_of_le_length p1]
        exact ⟨by omega, p2⟩
    | sendErr hm => simpa [keepingOf, frames, hm] using h
    | sendPanic hm => exact ⟨by simpa [keepingOf, frames, hm] using hc, h.pos, ho, hn⟩
    | endTwice _ => exact ⟨by simpa [keepingOf, frames] using hc, h.pos, ho, hn⟩
    | endOnce _ => exact ⟨by simpa [keepingOf, frames] using hc, h.pos, ho, hn⟩
    | recv _ => exact ⟨by simpa [keepingOf, frames] using hc, h.pos, ho, hn⟩
    | tick hp => rw [hp] at hc; exact ⟨by simpa [keepingOf, frames, pend] using hc, by simp, ho, by simp [needsOut]⟩
    | seeEnd hp _ => rw [hp] at hc; exact ⟨by simpa [keepingOf, frames, pend] using hc, by simp, ho, by simp [needsOut]⟩
    | testOut hp h1 => rw [hp] at hc; exact ⟨by simpa [keepingOf, frames, pend] using hc, by simp, ho, fun _ => h1⟩
    | testNil hp _ => rw [hp] at hc; exact ⟨by simpa [keepingOf, frames, pend] using hc, by simp, ho, by simp [needsOut]⟩
    | connOk hp => rw [hp] at hc; exact ⟨by simpa [keepingOf, frames, pend, wireOf_new] using hc, by simp, by simp, fun _ => rfl⟩
    | connErr hp => rw [hp] at hc; exact ⟨by simpa [keepingOf, frames, pend] using hc, by simp, ho, by simp [needsOut]⟩
    | errConn hp _ =>
      rw [hp] at hc
      exact ⟨by rw [pend_ret]; simpa [keepingOf, frames, pend] using hc, fun f k n he => absurd he (ret_write _ _ _ _), ho, by simp [needsOut_ret]⟩
    | lock hp _ => rw [hp] at hc hn; exact ⟨by simpa [keepingOf, frames, pend] using hc, by simp, ho, fun _ => hn rfl⟩
    | loopMore hp _ => 
      rw [hp] at hc hn
      refine ⟨by simpa [keepingOf, frames, pend] using hc, ?_, ho, fun _ => hn rfl⟩
      intro f k n he
      simp only [PC.write.injEq] at he
      obtain ⟨_, rfl, rfl⟩ := he
      simp
    | loopEnd hp _ => rw [hp] at hc; exact ⟨by simpa [keepingOf, frames, pend] using hc, by simp, ho, by simp [needsOut]⟩
    | writeEnd hp _ =>
      have hp2 := (h.pos _ _ _ hp).2
      rw [hp] at hc hn
      exact ⟨by simpa [keepingOf, frames, pend] using counts_consume hc hp2, by simp, ho, fun _ => hn rfl⟩
    | writeOk hp hb =>
      obtain ⟨c1, c2, c3, c4⟩ := counts_write h hp hb (Nat.le_refl _)
      rw [List.take_length] at c1 c2
      have hn := hn (by rw [hp]; rfl)
      refine ⟨by simpa [keepingOf, frames, pend] using c1, ?_, fun _ => c2, fun _ => hn⟩
      intro f' k' n' he
      simp only [PC.write.injEq] at he
      obtain ⟨_, rfl, rfl⟩ := he
      exact ⟨c3, c4⟩
    | writeNobufs hp hb hnb =>
      obtain ⟨c1, c2, c3, c4⟩ := counts_write h hp hb hnb
      exact ⟨by simpa [keepingOf, frames, pend] using counts_consume c1 c4, by simp, fun _ => c2, by simp [needsOut]⟩
    | writeErr hp hb hnb =>
      obtain ⟨c1, c2, c3, c4⟩ := counts_write h hp hb hnb
      have hn := hn (by rw [hp]; rfl)
      exact ⟨by simpa [keepingOf, frames, pend] using counts_consume c1 c4, by simp, fun _ => c2, fun _ => hn⟩
    | errWrite hp _ => rw [hp] at hc; exact ⟨by simpa [keepingOf, frames, pend] using hc, by simp, by simp, by simp [needsOut]⟩
    | unlock hp =>
      rw [hp] at hc
      exact ⟨by rw [pend_ret]; simpa [keepingOf, frames, pend] using hc, fun f k n he => absurd he (ret_write _ _ _ _), ho, by simp [needsOut_ret]⟩
    | drainMore hp _ => rw [hp] at hc; exact ⟨by simpa [keepingOf, frames, pend] using hc, by simp, ho, by simp [needsOut]⟩
    | drainEnd hp _ => rw [hp] at hc; exact ⟨by simpa [keepingOf, frames, pend] using hc, by simp, ho, by simp [needsOut]⟩
    | closeOut hp h1 =>
      rw [hp] at hc
      exact ⟨by simpa [keepingOf, frames, pend, wireOf_closeLast] using hc, by simp, fun _ => closeLast_ne (ho h1), fun _ => h1⟩
    | closeNil hp _ => exact ⟨by simpa [keepingOf, frames] using hc, h.pos, ho, hn⟩
    | closeDone hp => rw [hp] at hc hn; exact ⟨by simpa [keepingOf, frames, pend] using hc, by simp, ho, fun _ => hn rfl⟩
    | closeErr hp => rw [hp] at hc hn; exact ⟨by simpa [keepingOf, frames, pend] using hc, by simp, ho, fun _ => hn rfl⟩

theorem keepingOf_cons (e : WEvent) (r : List WEvent) : keepingOf (e :: r) = keepingOf [e] ++ keepingOf r := by
  cases e <;> simp [keepingOf]

/-- **C109**, nothing disappears: if `Write` never reports more bytes than it was given, then, whatever it reports, as many bytes as were sent
have been accepted by connections or are still in the queue. -/
theorem C109_counts (t : Transport) (es : List WEvent) (s : State) (h : wrun t init es = some s) (hw : NeverTooMany t es) :
    (wire s).length + (s.queue.flatten.drop (match s.pc with | .write _ _ n => n | _ => 0)).length = (frames t (keepingOf es)).flatten.length := by
  have key : ∀ (es : List WEvent) (a b : State) (total : Nat), Counts total a → EveryWrite t (fun nb _ b _ => nb ≤ b.length) a es →
      wrun t a es = some b → Counts (total + (frames t (keepingOf es)).flatten.length) b := by
    intro es
    induction es with
    | nil =>
      intro a b total hp _ hab
      simp only [wrun, Option.some.injEq] at hab
      subst hab
      simpa [keepingOf, frames] using hp
    | cons e r ih =>
      intro a b total hp hw hab
      simp only [wrun] at hab
      cases hs : wstep t a e with
      | none => simp [hs] at hab
      | some a1 =>
        rw [hs] at hab
        simp only [Option.bind_some] at hab
        have h1 := counts_step hp hs hw.1
        have h2 := ih a1 b _ h1 (hw.2 a1 hs) hab
        rw [keepingOf_cons, frames_append, List.flatten_append, List.length_append, ← Nat.add_assoc]
        exact h2
  have hc : Counts 0 init := ⟨rfl, by simp [init], by simp [init], by simp [init, needsOut]⟩
  have hk := key es init s 0 hc hw h
  have h1 := hk.cnt
  rw [Nat.zero_add] at h1
  have hd : (match s.pc with | .write _ _ n => n | _ => 0) = pend s.pc := by cases s.pc <;> rfl
  rw [hd, List.length_drop]
  have hle : pend s.pc ≤ s.queue.flatten.length := by
    cases hp : s.pc with
    | write f k n =>
      have := (hk.pos f k n hp).2
      have := take_flatten_le s.queue k
      simp only [pend]; omega
    | _ => simp [pend]
  show (wireOf s.conns).length + _ = _
  omega

/-! ### Short writes at the end of the queue -/

/-- The state of a sender whose writer keeps the contract: the same one, or, after a short write of the last frame, the one after a failed write (`ENOBUFS`)
of as many bytes. -/
def Like (s p : State) : Prop :=
  p = s ∨ ∃ fin k n, s.pc = .write fin k n ∧ k = s.queue.length ∧ s.locked = true ∧ s.output = true ∧ consume s.queue n ≠ [] ∧
    p = { s with queue := consume s.queue n, pc := .unlock fin }

theorem consume_ne {q : List Bytes} {n : Nat} (h : n < q.flatten.length) : consume q n ≠ [] := by
  intro he
  have := consume_flatten q n
  rw [he] at this
  have h2 : (q.flatten.drop n).length = 0 := by rw [← this]; rfl
  rw [List.length_drop] at h2
  omega

theorem like_step {t : Transport} {s p s' : State} {e : WEvent} {fr : List Bytes} (hi : Inv fr p) (hl : Like s p) (hs : wstep t s e = some s')
    (hw : ∀ nb w, e = .any nb w → ∀ fin k n b, s.pc = .write fin k n → s.queue[k]? = some b →
      nb ≤ b.length ∧ (w = none → nb = b.length ∨ s.queue.length - (k + 1) = 0)) :
    ∃ es p', run t p es = some p' ∧ Like s' p' ∧ frames t es = frames t (keepingOf [e]) ∧ received es = received (keepingOf [e]) := by
  cases e with
  | any nb r =>
    obtain ⟨hcr, fin, k, n, b, hpc, hb, hcase⟩ := wstep_any hs
    obtain ⟨hnb, hshort⟩ := hw nb r rfl fin k n b hpc hb
    have hlt : k < s.queue.length := by
      rcases Nat.lt_or_ge k s.queue.length with h1 | h1
      · exact h1
      · rw [List.getElem?_eq_none h1] at hb; simp at hb
    rcases hl with rfl | ⟨fin', k', n', hpc', hk, _⟩
    · rcases hcase with ⟨rfl, rfl⟩ | ⟨rfl, rfl⟩ | ⟨e, rfl, rfl⟩
      · by_cases hfull : nb = b.length
        · subst hfull
          exact ⟨[.write b.length none], _, by simp [run, step, hcr, hpc, hb], Or.inl rfl, by simp [frames, keepingOf], by simp [received, keepingOf]⟩
        · have hlast : p.queue.length - (k + 1) = 0 := (hshort rfl).resolve_left hfull
          have hn := (hi.pos fin k n hpc).2
          refine ⟨[.write nb (some .nobufs)], { p with conns := addWrite (b.take nb) p.conns, queue := consume p.queue (n + nb), pc := .unlock fin },
            by simp [run, step, hcr, hpc, hb, hnb], Or.inr ⟨fin, k + 1, n + nb, rfl, by simp only; omega, ?_, ?_, ?_, rfl⟩, by simp [frames, keepingOf],
            by simp [received, keepingOf]⟩
          · have := hi.lock; rw [hpc] at this; simpa [holds] using this
          · exact hi.need (by rw [hpc]; rfl)
          · refine consume_ne ?_
            have h1 := take_flatten_length_succ _ _ _ hb
            have h2 := take_flatten_le p.queue (k + 1)
            show n + nb < p.queue.flatten.length
            omega
      · exact ⟨[.write nb (some .nobufs)], _, by simp [run, step, hcr, hpc, hb, hnb], Or.inl rfl, by simp [frames, keepingOf], by simp [received, keepingOf]⟩
      · exact ⟨[.write nb (some (.other e))], _, by simp [run, step, hcr, hpc, hb, hnb], Or.inl rfl, by simp [frames, keepingOf], by simp [received, keepingOf]⟩
    · rw [hpc] at hpc'
      simp only [PC.write.injEq] at hpc'
      obtain ⟨_, rfl, _⟩ := hpc'
      omega
  | std e =>
    have hs : step t s e = some s' := hs
    rcases hl with rfl | ⟨fin, k, n, hpc, hk, hlk, hout, hne, rfl⟩
    · exact ⟨[e], s', by simp [run, hs], Or.inl rfl, by simp [keepingOf], by simp [keepingOf]⟩
    · obtain ⟨hcr, htr⟩ := step_tr hs
      cases htr with
      | sendOk hm hl => rw [hlk] at hl; simp at hl
      | sendErr hm => exact ⟨[], _, rfl, Or.inr ⟨fin, k, n, hpc, hk, hlk, hout, hne, rfl⟩, by simp [keepingOf, frames, hm], by simp [keepingOf, received]⟩
      | @sendPanic m hm =>
        exact ⟨[.send m], _, by simp [run, step, hcr, hm], Or.inr ⟨fin, k, n, hpc, hk, hlk, hout, hne, rfl⟩, by simp [keepingOf], by simp [keepingOf]⟩
      | endTwice he =>
        exact ⟨[.endCall], _, by simp [run, step, hcr, he], Or.inr ⟨fin, k, n, hpc, hk, hlk, hout, hne, rfl⟩, by simp [keepingOf], by simp [keepingOf]⟩
      | endOnce he =>
        exact ⟨[.endCall], _, by simp [run, step, hcr, he], Or.inr ⟨fin, k, n, hpc, hk, hlk, hout, hne, rfl⟩, by simp [keepingOf], by simp [keepingOf]⟩
      | @recv e r he =>
        exact ⟨[.recvErr e], _, by simp [run, step, hcr, he], Or.inr ⟨fin, k, n, hpc, hk, hlk, hout, hne, rfl⟩, by simp [keepingOf], by simp [keepingOf]⟩
      | @writeEnd f k' n' hp _ =>
        rw [hpc] at hp
        simp only [PC.write.injEq] at hp
        obtain ⟨rfl, rfl, rfl⟩ := hp
        have hpos : 0 < (consume s.queue n).length := List.length_pos_iff.mpr hne
        cases fin with
        | false =>
          refine ⟨[.tau, .tick, .tau, .tau], { s with queue := consume s.queue n, pc := .loop false }, ?_, Or.inl rfl, by simp [keepingOf, frames], by simp [keepingOf, received]⟩
          simp [run, step, hcr, hout, ret, hlk]
        | true =>
          refine ⟨[.tau, .tau, .tau, .tau], { s with queue := consume s.queue n, pc := .loop true }, ?_, Or.inl rfl, by simp [keepingOf, frames], by simp [keepingOf, received]⟩
          simp [run, step, hcr, hout, ret, hlk, hpos]
      | tick hp => rw [hpc] at hp; simp at hp
      | seeEnd hp _ => rw [hpc] at hp; simp at hp
      | testOut hp _ => rw [hpc] at hp; simp at hp
      | testNil hp _ => rw [hpc] at hp; simp at hp
      | connOk hp => rw [hpc] at hp; simp at hp
      | connErr hp => rw [hpc] at hp; simp at hp
      | errConn hp _ => rw [hpc] at hp; simp at hp
      | lock hp _ => rw [hpc] at hp; simp at hp
      | loopMore hp _ => rw [hpc] at hp; simp at hp
      | loopEnd hp _ => rw [hpc] at hp; simp at hp
      | writeOk hp hb =>
        rw [hpc] at hp
        simp only [PC.write.injEq] at hp
        obtain ⟨_, rfl, _⟩ := hp
        rw [hk, List.getElem?_eq_none (Nat.le_refl _)] at hb; simp at hb
      | writeNobufs hp hb _ =>
        rw [hpc] at hp
        simp only [PC.write.injEq] at hp
        obtain ⟨_, rfl, _⟩ := hp
        rw [hk, List.getElem?_eq_none (Nat.le_refl _)] at hb; simp at hb
      | writeErr hp hb _ =>
        rw [hpc] at hp
        simp only [PC.write.injEq] at hp
        obtain ⟨_, rfl, _⟩ := hp
        rw [hk, List.getElem?_eq_none (Nat.le_refl _)] at hb; simp at hb
      | errWrite hp _ => rw [hpc] at hp; simp at hp
      | unlock hp => rw [hpc] at hp; simp at hp
      | drainMore hp _ => rw [hpc] at hp; simp at hp
      | drainEnd hp _ => rw [hpc] at hp; simp at hp
      | closeOut hp _ => rw [hpc] at hp; simp at hp
      | closeNil hp _ => rw [hpc] at hp; simp at hp
      | closeDone hp => rw [hpc] at hp; simp at hp
      | closeErr hp => rw [hpc] at hp; simp at hp

theorem same_like (t : Transport) (es : List WEvent) (s : State) (h : wrun t init es = some s) (hw : ShortAtEndOnly t es) :
    ∃ es' p, History t es' p ∧ p.conns = s.conns ∧ frames t es' = frames t (keepingOf es) ∧ received es' = received (keepingOf es) ∧ p.errs = s.errs ∧
      p.crashed = s.crashed ∧ p.endAsked = s.endAsked ∧ p.endCompleted = s.endCompleted ∧ Like s p := by
  have key : ∀ (es : List WEvent) (a b p : State) (fr : List Bytes), Inv fr p → Like a p →
      EveryWrite t (fun nb r b left => nb ≤ b.length ∧ (r = none → nb = b.length ∨ left = 0)) a es → wrun t a es = some b →
      ∃ es' p', run t p es' = some p' ∧ Like b p' ∧ frames t es' = frames t (keepingOf es) ∧ received es' = received (keepingOf es) := by
    intro es
    induction es with
    | nil =>
      intro a b p fr _ hl _ hab
      simp only [wrun, Option.some.injEq] at hab
      subst hab
      exact ⟨[], p, rfl, hl, rfl, rfl⟩
    | cons e r ih =>
      intro a b p fr hi hl hw hab
      simp only [wrun] at hab
      cases hs : wstep t a e with
      | none => simp [hs] at hab
      | some a1 =>
        rw [hs] at hab
        simp only [Option.bind_some] at hab
        obtain ⟨es1, p1, r1, l1, f1, c1⟩ := like_step hi hl hs hw.1
        obtain ⟨es2, p2, r2, l2, f2, c2⟩ := ih a1 b p1 _ (inv_run hi r1) l1 (hw.2 a1 hs) hab
        refine ⟨es1 ++ es2, p2, run_append r1 r2, l2, ?_, ?_⟩
        · rw [keepingOf_cons, frames_append, frames_append, f1, f2]
        · rw [keepingOf_cons, received_append, received_append, c1, c2]
  obtain ⟨es', p, h1, h2, h3, h4⟩ := key es init s init [] inv_init (Or.inl rfl) hw h
  refine ⟨es', p, h1, ?_, h3, h4, ?_, ?_, ?_, ?_, h2⟩ <;>
  · rcases h2 with rfl | ⟨_, _, _, _, _, _, _, _, rfl⟩ <;> rfl

/-- **C109** (partial), short writes without an error: if they happen only for the last frame of the queue, the sender does what it does with a writer that keeps
the contract: every history has the connections with what was written to them, the accepted messages and the received errors in common with a history of
`Model/Sender.lean`, whether the program has crashed, `End` was called and has been granted, too. -/
theorem C109_same_partial (t : Transport) (es : List WEvent) (s : State) (h : wrun t init es = some s) (hw : ShortAtEndOnly t es) :
    ∃ es' p, History t es' p ∧ p.conns = s.conns ∧ frames t es' = frames t (keepingOf es) ∧ received es' = received (keepingOf es) ∧ p.errs = s.errs ∧
      p.crashed = s.crashed ∧ p.endAsked = s.endAsked ∧ p.endCompleted = s.endCompleted := by
  obtain ⟨es', p, h1, h2, h3, h4, h5, h6, h7, h8, _⟩ := same_like t es s h hw
  exact ⟨es', p, h1, h2, h3, h4, h5, h6, h7, h8⟩

/-- **C109** (partial): and so every frame is written exactly once and in order, as in C34. -/
theorem C109_exactly_once_partial (t : Transport) (es : List WEvent) (s : State) (h : wrun t init es = some s) (hw : ShortAtEndOnly t es) :
    wire s ++ s.queue.flatten.drop (match s.pc with | .write _ _ n => n | _ => 0) = (frames t (keepingOf es)).flatten := by
  obtain ⟨es', p, h1, h2, h3, _, _, _, _, _, h5⟩ := same_like t es s h hw
  have h6 := C34_exactly_once t es' p h1
  rw [h3] at h6
  rw [← h6]
  rcases h5 with rfl | ⟨fin, k, n, hpc, _, _, _, _, rfl⟩
  · rfl
  · simp only [hpc, List.drop_zero, consume_flatten]
    rfl

/-- A check of `EveryWrite`. -/
def everyB (t : Transport) (p : Nat → Option WErr → Bytes → Nat → Bool) : State → List WEvent → Bool
  | _, [] => true
  | s, e :: r =>
    (match e with
      | .any nb w => match s.pc with
        | .write _ k _ => match s.queue[k]? with
          | some b => p nb w b (s.queue.length - (k + 1))
          | none => true
        | _ => true
      | _ => true) &&
    match wstep t s e with
    | some s' => everyB t p s' r
    | none => true

theorem everyB_sound {t : Transport} {p : Nat → Option WErr → Bytes → Nat → Bool} {s : State} {es : List WEvent} (h : everyB t p s es = true) :
    EveryWrite t (fun nb r b left => p nb r b left = true) s es := by
  induction es generalizing s with
  | nil => trivial
  | cons e r ih =>
    simp only [everyB, Bool.and_eq_true] at h
    refine ⟨?_, ?_⟩
    · rintro nb w rfl fin k n b hpc hb
      simpa [hpc, hb] using h.1
    · intro s' hs
      rw [hs] at h
      exact ih h.2

theorem EveryWrite.mono {t : Transport} {P Q : Nat → Option WErr → Bytes → Nat → Prop} (hpq : ∀ a b c d, P a b c d → Q a b c d) {s : State} {es : List WEvent}
    (h : EveryWrite t P s es) : EveryWrite t Q s es := by
  induction es generalizing s with
  | nil => trivial
  | cons e r ih => exact ⟨fun nb w he fin k n b hpc hb => hpq _ _ _ _ (h.1 nb w he fin k n b hpc hb), fun s' hs => ih (h.2 s' hs)⟩

/-- A short write of the last frame, and of its rest, which meet the condition of `C109_same_partial`. -/
def exShortLast : List WEvent :=
  [.std (.send (exMsg b!"x")), .std (.send (exMsg b!"y")), .std .tick, .std .tau, .std (.connect none), .std .tau, .std .tau, .std (.write 39 none), .any 10 none,
    .std .tau, .std .tau, .any 0 none, .std .tau, .std .tau, .any 29 none]

example : ∃ s, wrun .lfEnded init exShortLast = some s ∧ ShortAtEndOnly .lfEnded exShortLast ∧
    wire s = b!"<14>1 1970-01-01T00:00:00Z h a 1 - - x\n<14>1 1970-01-01T00:00:00Z h a 1 - - y\n" := by
  refine ⟨⟨[b!"-01-01T00:00:00Z h a 1 - - y\n"], [⟨[b!"<14>1 1970-01-01T00:00:00Z h a 1 - - x\n", b!"<14>1 1970", [], b!"-01-01T00:00:00Z h a 1 - - y\n"], false⟩], true, true, [],
      false, false, false, false, .write false 1 29⟩, by decide +kernel, ?_, by decide +kernel⟩
  refine EveryWrite.mono (fun a b c d h => ?_) (everyB_sound (p := fun nb r b left => decide (nb ≤ b.length) && (r != none || decide (nb = b.length) || decide (left = 0)))
    (by decide +kernel))
  simp only [Bool.and_eq_true, decide_eq_true_eq, Bool.or_eq_true, bne_iff_ne, ne_eq] at h
  refine ⟨h.1, fun hr => ?_⟩
  rcases h.2 with (h1 | h1) | h1
  · exact absurd hr h1
  · exact Or.inl h1
  · exact Or.inr h1

/-- What the writes that break the contract did: two messages, and a short write of the first one. -/
def exShort : List WEvent :=
  [.std (.send (exMsg b!"x")), .std (.send (exMsg b!"y")), .std .tick, .std .tau, .std (.connect none), .std .tau, .std .tau, .any 10 none, .std (.write 39 none),
    .std .tau, .std .tau, .std (.write 29 none), .std .tau, .std .tau, .std .tau]

/-- C109 is violated: `WriteTo` goes on with the next frame after a short write, and what it keeps in the queue are the last bytes, not those that were not
accepted: the first message arrives cut, the end of the second one arrives twice, and the sender considers everything as written. Nothing is reported. -/
theorem C109_scrambled_violated : ∃ s, wrun .lfEnded init exShort = some s ∧ NeverTooMany .lfEnded exShort ∧ s.queue = [] ∧ s.errs = [] ∧ s.crashed = false ∧
    frames .lfEnded (keepingOf exShort) = [b!"<14>1 1970-01-01T00:00:00Z h a 1 - - x\n", b!"<14>1 1970-01-01T00:00:00Z h a 1 - - y\n"] ∧
    s.conns = [⟨[b!"<14>1 1970", b!"<14>1 1970-01-01T00:00:00Z h a 1 - - y\n", b!"-01-01T00:00:00Z h a 1 - - y\n"], false⟩] ∧
    ¬ wire s <+: (frames .lfEnded (keepingOf exShort)).flatten := by
  refine ⟨⟨[], [⟨[b!"<14>1 1970", b!"<14>1 1970-01-01T00:00:00Z h a 1 - - y\n", b!"-01-01T00:00:00Z h a 1 - - y\n"], false⟩], true, false, [],
      false, false, false, false, .select⟩, by decide +kernel, ?_, rfl, rfl, rfl, by decide +kernel, rfl, by decide +kernel⟩
  exact EveryWrite.mono (fun a b c d h => by simpa using h) (everyB_sound (p := fun nb _ b _ => decide (nb ≤ b.length)) (by decide +kernel))

theorem wrun_append {t : Transport} {s s' : State} {es es' : List WEvent} (h : wrun t s es = some s') : wrun t s (es ++ es') = wrun t s' es' := by
  induction es generalizing s with
  | nil => simp only [wrun, Option.some.injEq] at h; subst h; rfl
  | cons e r ih =>
    simp only [wrun, List.cons_append] at h ⊢
    cases hs : wstep t s e with
    | none => simp [hs] at h
    | some s1 => rw [hs] at h; exact ih h

theorem zero_writes (t : Transport) (fin : Bool) : ∀ (m : Nat) (s : State) (k : Nat), s.pc = .write fin k 0 → s.crashed = false → k + m = s.queue.length →
    ∃ cs, wrun t s (List.replicate m (.any 0 none)) = some { s with conns := cs, pc := .write fin s.queue.length 0 }
  | 0, s, k, hpc, hc, hk => by
    refine ⟨s.conns, ?_⟩
    rw [← hk, Nat.add_zero, ← hpc]
    rfl
  | m + 1, s, k, hpc, hc, hk => by
    have hb : s.queue[k]? = some s.queue[k] := List.getElem?_eq_getElem (by omega)
    obtain ⟨cs, h⟩ := zero_writes t fin m { s with conns := addWrite (s.queue[k].take 0) s.conns, pc := .write fin (k + 1) 0 } (k + 1) rfl hc (by simp only; omega)
    refine ⟨cs, ?_⟩
    rw [List.replicate_succ]
    simp only [wrun, wstep, hc, hpc, hb, Bool.false_eq_true, if_false, Option.bind_some, Nat.add_zero]
    simp only [hc] at h
    exact h

/-- C109 is violated: a `Write` that accepts nothing and reports no error is called for ever, while the lock is held, so that no `Send` returns: from any moment
inside `WriteTo`, after any number of calls, the sender is where it was. -/
theorem C109_spin_violated (t : Transport) (s : State) (fin : Bool) (hpc : s.pc = .write fin 0 0) (hc : s.crashed = false) (f : Bytes) (rest : List Bytes)
    (hq : s.queue = f :: rest) (hf : f ≠ []) (N : Nat) :
    ∃ es s', N ≤ (es.filter fun e => e matches .any 0 none).length ∧ (∀ e ∈ es, e = .any 0 none ∨ e = .std .tau) ∧ wrun t s es = some s' ∧
      s'.pc = .write fin 0 0 ∧ s'.queue = s.queue ∧ s'.locked = s.locked ∧ s'.endCompleted = s.endCompleted ∧ s'.errs = s.errs ∧ s'.crashed = false := by
  have hlen : 0 < f.length := List.length_pos_iff.mpr hf
  induction N with
  | zero => exact ⟨[], s, Nat.zero_le _, by simp, rfl, hpc, rfl, rfl, rfl, rfl, hc⟩
  | succ N ih =>
    obtain ⟨es, s1, h1, h2, h3, h4, h5, h6, h7, h8, h9⟩ := ih
    obtain ⟨cs, hz⟩ := zero_writes t fin s1.queue.length s1 0 h4 h9 (by omega)
    refine ⟨es ++ (List.replicate s1.queue.length (.any 0 none) ++ [.std .tau, .std .tau]), { s1 with conns := cs, pc := .write fin 0 0 }, ?_, ?_, ?_, rfl, h5, h6, h7, h8, h9⟩
    · rw [List.filter_append, List.filter_append, List.length_append, List.length_append, List.filter_replicate]
      have : 0 < s1.queue.length := by rw [h5, hq]; simp
      simp only [if_true, List.length_replicate]
      omega
    · intro e he
      rcases List.mem_append.mp he with he | he
      · exact h2 e he
      · rcases List.mem_append.mp he with he | he
        · exact Or.inl (List.eq_of_mem_replicate he)
        · simp only [List.mem_cons, List.not_mem_nil, or_false, or_self] at he; exact Or.inr he
    · rw [wrun_append h3, wrun_append hz]
      simp [wrun, wstep, step, h9, h5, hq, consume, hlen]

/-- A state as in `C109_spin_violated`. -/
example : ∃ s, wrun .lfEnded init [.std (.send (exMsg b!"x")), .std .tick, .std .tau, .std (.connect none), .std .tau, .std .tau] = some s ∧ s.pc = .write false 0 0 ∧
    s.crashed = false ∧ s.locked = true ∧ s.queue = [b!"<14>1 1970-01-01T00:00:00Z h a 1 - - x\n"] :=
  ⟨⟨[b!"<14>1 1970-01-01T00:00:00Z h a 1 - - x\n"], [⟨[], false⟩], true, true, [], false, false, false, false, .write false 0 0⟩,
    by decide +kernel, rfl, rfl, rfl, rfl⟩

/-- C109 is violated: a `Write` that reports more than it was given, together with an error, makes the sender drop the next message, which was written nowhere. -/
theorem C109_lost_violated : ∃ s, wrun .lfEnded init
      [.std (.send (exMsg b!"x")), .std (.send (exMsg b!"y")), .std .tick, .std .tau, .std (.connect none), .std .tau, .std .tau, .any 78 (some .nobufs), .std .tau] = some s ∧
    s.queue = [] ∧ s.errs = [] ∧ s.crashed = false ∧ s.conns = [⟨[b!"<14>1 1970-01-01T00:00:00Z h a 1 - - x\n"], false⟩] :=
  ⟨⟨[], [⟨[b!"<14>1 1970-01-01T00:00:00Z h a 1 - - x\n"], false⟩], true, false, [], false, false, false, false, .select⟩,
    by decide +kernel, rfl, rfl, rfl, rfl⟩

end Syslog5424
