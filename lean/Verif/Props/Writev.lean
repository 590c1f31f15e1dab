import Verif.Spec.Writev
import Verif.Props.Sender
import Verif.Props.EndToEndLines
/-! # Property C76: connections that take several frames at once -/
namespace Syslog5424
open Spec Sender

/-! ## Grouping does not matter -/

theorem sameConns_refl (cs : List Conn) : Each SameConn cs cs := by
  induction cs with
  | nil => exact .nil
  | cons c r ih => exact .cons ⟨rfl, rfl⟩ ih

theorem SameState.refl (s : State) : SameState s s := ⟨rfl, sameConns_refl _, rfl, rfl, rfl, rfl, rfl, rfl, rfl, rfl⟩

theorem sameConns_add {d : Bytes} {cs cs' : List Conn} (h : Each SameConn cs cs') : Each SameConn (addWrite d cs) (addWrite d cs') := by
  induction h with
  | nil => exact .nil
  | @cons a b as bs h1 h2 ih =>
    cases h2 with
    | nil => exact .cons ⟨by simp [h1.1], h1.2⟩ .nil
    | cons h3 h4 => exact .cons h1 ih

theorem sameConns_close {cs cs' : List Conn} (h : Each SameConn cs cs') : Each SameConn (closeLast cs) (closeLast cs') := by
  induction h with
  | nil => exact .nil
  | @cons a b as bs h1 h2 ih =>
    cases h2 with
    | nil => exact .cons ⟨h1.1, rfl⟩ .nil
    | cons h3 h4 => exact .cons h1 ih

theorem sameConns_snoc {cs cs' : List Conn} (c : Conn) (h : Each SameConn cs cs') : Each SameConn (cs ++ [c]) (cs' ++ [c]) := by
  induction h with
  | nil => exact .cons ⟨rfl, rfl⟩ .nil
  | cons h1 _ ih => exact .cons h1 ih

theorem sameConns_start {cs cs' : List Conn} (h : Each SameConn cs cs') : Each SameConn (addWrite [] cs) cs' := by
  induction h with
  | nil => exact .nil
  | @cons a b as bs h1 h2 ih =>
    cases h2 with
    | nil => exact .cons ⟨by simp [h1.1], h1.2⟩ .nil
    | cons h3 h4 => exact .cons h1 ih

theorem sameConns_more {x d : Bytes} {cs cs' : List Conn} (h : Each SameConn (addWrite x cs) cs') :
    Each SameConn (addWrite (x ++ d) cs) (addWrite d cs') := by
  induction cs generalizing cs' with
  | nil => cases h; exact .nil
  | cons c r ih =>
    cases r with
    | nil =>
      cases h with
      | cons h1 h2 =>
        cases h2
        refine .cons ⟨?_, h1.2⟩ .nil
        have := h1.1
        simp only [List.flatten_append, List.flatten_cons, List.flatten_nil, List.append_nil] at this ⊢
        rw [← this, List.append_assoc]
    | cons c' r' =>
      simp only [addWrite] at h ⊢
      cases h with
      | cons h1 h2 =>
        have h3 := ih (by simpa [addWrite] using h2)
        have hne : ∀ {a b : List Conn}, Each SameConn (addWrite x (c' :: r')) a → a ≠ [] := by
          intro a _ h e
          subst e
          generalize hg : addWrite x (c' :: r') = g at h
          cases h
          cases r' <;> simp [addWrite] at hg
        rename_i b bs
        cases bs with
        | nil => exact absurd rfl (hne (b := []) (by simpa [addWrite] using h2))
        | cons b' bs' => exact .cons h1 (by simpa [addWrite] using h3)

theorem tr_step {t : Transport} {s s' : State} {e : Event} (hc : s.crashed = false) (h : Tr t s e s') : step t s e = some s' := by
  obtain ⟨q, cs, out, lk, er, ea, ec, ecl, cr, pc⟩ := s
  simp only at hc
  subst hc
  cases h
  case writeOk x hpc hx => simp only at hpc hx; subst hpc; simp [step, hx]
  case writeNobufs x hpc hx hle => simp only at hpc hx; subst hpc; simp [step, hx, hle]
  case writeErr x hpc hx hle => simp only at hpc hx; subst hpc; simp [step, hx, hle]
  case writeEnd hpc hx => simp only at hpc hx; subst hpc; simp only [step, Bool.false_eq_true, if_false]; rw [if_neg (by omega)]
  case loopMore hpc hx =>
    simp only at hpc hx; subst hpc
    simp [step, List.length_pos_iff.mpr hx]
  case drainMore hpc hx =>
    simp only at hpc hx; subst hpc
    simp [step, List.length_pos_iff.mpr hx]
  all_goals simp_all [step]

/-- The same event happens in two states that cannot be told apart. -/
theorem step_same {t : Transport} {a b a' : State} {e : Event} (hs : SameState a b) (h : step t a e = some a') :
    ∃ b', step t b e = some b' ∧ SameState a' b' := by
  obtain ⟨hcr, htr⟩ := step_tr h
  clear h
  obtain ⟨q, cs, out, lk, er, ea, ec, ecl, cr, pc⟩ := a
  obtain ⟨q', cs', out', lk', er', ea', ec', ecl', cr', pc'⟩ := b
  obtain ⟨h1, hcs, h3, h4, h5, h6, h7, h8, h9, h10⟩ := hs
  simp only at h1 hcs h3 h4 h5 h6 h7 h8 h9 h10 hcr
  subst h1 h3 h4 h5 h6 h7 h8 h9 h10 hcr
  cases htr
  case connOk hpc => exact ⟨_, tr_step rfl (.connOk hpc), ⟨rfl, sameConns_snoc _ hcs, rfl, rfl, rfl, rfl, rfl, rfl, rfl, rfl⟩⟩
  case closeOut hpc ho => exact ⟨_, tr_step rfl (.closeOut hpc ho), ⟨rfl, sameConns_close hcs, rfl, rfl, rfl, rfl, rfl, rfl, rfl, rfl⟩⟩
  case writeOk x hpc hx => exact ⟨_, tr_step rfl (.writeOk hpc hx), ⟨rfl, sameConns_add hcs, rfl, rfl, rfl, rfl, rfl, rfl, rfl, rfl⟩⟩
  case writeNobufs x hpc hx hle =>
    exact ⟨_, tr_step rfl (.writeNobufs hpc hx hle), ⟨rfl, sameConns_add hcs, rfl, rfl, rfl, rfl, rfl, rfl, rfl, rfl⟩⟩
  case writeErr x hpc hx hle =>
    exact ⟨_, tr_step rfl (.writeErr hpc hx hle), ⟨rfl, sameConns_add hcs, rfl, rfl, rfl, rfl, rfl, rfl, rfl, rfl⟩⟩
  case sendOk h1 h2 => exact ⟨_, tr_step rfl (.sendOk h1 h2), ⟨rfl, hcs, rfl, rfl, rfl, rfl, rfl, rfl, rfl, rfl⟩⟩
  case sendErr h1 => exact ⟨_, tr_step rfl (.sendErr h1), ⟨rfl, hcs, rfl, rfl, rfl, rfl, rfl, rfl, rfl, rfl⟩⟩
  case sendPanic h1 => exact ⟨_, tr_step rfl (.sendPanic h1), ⟨rfl, hcs, rfl, rfl, rfl, rfl, rfl, rfl, rfl, rfl⟩⟩
  case endTwice h1 => exact ⟨_, tr_step rfl (.endTwice h1), ⟨rfl, hcs, rfl, rfl, rfl, rfl, rfl, rfl, rfl, rfl⟩⟩
  case endOnce h1 => exact ⟨_, tr_step rfl (.endOnce h1), ⟨rfl, hcs, rfl, rfl, rfl, rfl, rfl, rfl, rfl, rfl⟩⟩
  case recv h1 => exact ⟨_, tr_step rfl (.recv h1), ⟨rfl, hcs, rfl, rfl, rfl, rfl, rfl, rfl, rfl, rfl⟩⟩
  case tick h1 => exact ⟨_, tr_step rfl (.tick h1), ⟨rfl, hcs, rfl, rfl, rfl, rfl, rfl, rfl, rfl, rfl⟩⟩
  case seeEnd h1 h2 => exact ⟨_, tr_step rfl (.seeEnd h1 h2), ⟨rfl, hcs, rfl, rfl, rfl, rfl, rfl, rfl, rfl, rfl⟩⟩
  case testOut h1 h2 => exact ⟨_, tr_step rfl (.testOut h1 h2), ⟨rfl, hcs, rfl, rfl, rfl, rfl, rfl, rfl, rfl, rfl⟩⟩
  case testNil h1 h2 => exact ⟨_, tr_step rfl (.testNil h1 h2), ⟨rfl, hcs, rfl, rfl, rfl, rfl, rfl, rfl, rfl, rfl⟩⟩
  case connErr h1 => exact ⟨_, tr_step rfl (.connErr h1), ⟨rfl, hcs, rfl, rfl, rfl, rfl, rfl, rfl, rfl, rfl⟩⟩
  case errConn h1 h2 => exact ⟨_, tr_step rfl (.errConn h1 h2), ⟨rfl, hcs, rfl, rfl, rfl, rfl, rfl, rfl, rfl, rfl⟩⟩
  case lock h1 h2 => exact ⟨_, tr_step rfl (.lock h1 h2), ⟨rfl, hcs, rfl, rfl, rfl, rfl, rfl, rfl, rfl, rfl⟩⟩
  case loopMore h1 h2 => exact ⟨_, tr_step rfl (.loopMore h1 h2), ⟨rfl, hcs, rfl, rfl, rfl, rfl, rfl, rfl, rfl, rfl⟩⟩
  case loopEnd h1 h2 => exact ⟨_, tr_step rfl (.loopEnd h1 h2), ⟨rfl, hcs, rfl, rfl, rfl, rfl, rfl, rfl, rfl, rfl⟩⟩
  case writeEnd h1 h2 => exact ⟨_, tr_step rfl (.writeEnd h1 h2), ⟨rfl, hcs, rfl, rfl, rfl, rfl, rfl, rfl, rfl, rfl⟩⟩
  case errWrite h1 h2 => exact ⟨_, tr_step rfl (.errWrite h1 h2), ⟨rfl, hcs, rfl, rfl, rfl, rfl, rfl, rfl, rfl, rfl⟩⟩
  case unlock h1 => exact ⟨_, tr_step rfl (.unlock h1), ⟨rfl, hcs, rfl, rfl, rfl, rfl, rfl, rfl, rfl, rfl⟩⟩
  case drainMore h1 h2 => exact ⟨_, tr_step rfl (.drainMore h1 h2), ⟨rfl, hcs, rfl, rfl, rfl, rfl, rfl, rfl, rfl, rfl⟩⟩
  case drainEnd h1 h2 => exact ⟨_, tr_step rfl (.drainEnd h1 h2), ⟨rfl, hcs, rfl, rfl, rfl, rfl, rfl, rfl, rfl, rfl⟩⟩
  case closeNil h1 h2 => exact ⟨_, tr_step rfl (.closeNil h1 h2), ⟨rfl, hcs, rfl, rfl, rfl, rfl, rfl, rfl, rfl, rfl⟩⟩
  case closeDone h1 => exact ⟨_, tr_step rfl (.closeDone h1), ⟨rfl, hcs, rfl, rfl, rfl, rfl, rfl, rfl, rfl, rfl⟩⟩
  case closeErr h1 => exact ⟨_, tr_step rfl (.closeErr h1), ⟨rfl, hcs, rfl, rfl, rfl, rfl, rfl, rfl, rfl, rfl⟩⟩

/-! ## A `writev` is a sequence of writes -/

/-- Everything is accepted, one buffer after the other. -/
theorem writes_all (t : Transport) (f : Bool) (queue : List Bytes) (out lk ea ec ecl : Bool) (er : List SErr) (cs0 : List Conn) (d : Nat) :
    ∀ (k : Nat) (cs : List Conn), d = queue.length - k → k ≤ queue.length →
    Each SameConn (addWrite (queue.take k).flatten cs0) cs →
    ∃ es cs', run t ⟨queue, cs, out, lk, er, ea, ec, ecl, false, .write f k (queue.take k).flatten.length⟩ es =
        some ⟨consume queue queue.flatten.length, cs', out, lk, er, ea, ec, ecl, false, .loop f⟩ ∧
      Each SameConn (addWrite queue.flatten cs0) cs' ∧ seen es = [] ∧ frames t es = [] := by
  induction d with
  | zero =>
    intro k cs hd hk hcs
    have hke : k = queue.length := by omega
    subst hke
    rw [List.take_length] at hcs ⊢
    refine ⟨[.tau], cs, ?_, hcs, rfl, rfl⟩
    rw [run, tr_step rfl (.writeEnd rfl (Nat.le_refl _))]
    rfl
  | succ d ih =>
    intro k cs hd hk hcs
    have hlt : k < queue.length := by omega
    have hg := List.getElem?_eq_getElem hlt
    have htk : (queue.take (k + 1)).flatten = (queue.take k).flatten ++ queue[k] := by
      rw [List.take_add_one, hg, List.flatten_append]; simp
    obtain ⟨es, cs', h1, h2, h3, h4⟩ := ih (k + 1) (addWrite queue[k] cs) (by omega) (by omega) (by
      rw [htk]; exact sameConns_more hcs)
    refine ⟨.write queue[k].length none :: es, cs', ?_, h2, by simpa [seen] using h3, by simpa [frames] using h4⟩
    rw [run, tr_step rfl (.writeOk rfl hg)]
    simp only [Option.bind_some]
    rw [htk, List.length_append] at h1
    exact h1

/-- A part is accepted, then an error is reported. -/
theorem writes_some (t : Transport) (f : Bool) (queue : List Bytes) (out lk ea ec ecl : Bool) (er : List SErr) (cs0 : List Conn) (w : WErr) (nb : Nat) (d : Nat) :
    ∀ (k : Nat) (cs : List Conn), d = queue.length - k → k < queue.length → (queue.take k).flatten.length ≤ nb → nb ≤ queue.flatten.length →
    Each SameConn (addWrite (queue.take k).flatten cs0) cs →
    ∃ es cs', run t ⟨queue, cs, out, lk, er, ea, ec, ecl, false, .write f k (queue.take k).flatten.length⟩ es =
        some ⟨consume queue nb, cs', out, lk, er, ea, ec, ecl, false, match w with | .nobufs => .unlock f | .other e => .errWrite f (.write e)⟩ ∧
      Each SameConn (addWrite (queue.flatten.take nb) cs0) cs' ∧ seen es = [.failed w] ∧ frames t es = [] := by
  induction d with
  | zero => intro k cs hd hk; omega
  | succ d ih =>
    intro k cs hd hlt hge hle hcs
    have hg := List.getElem?_eq_getElem hlt
    have htk : (queue.take (k + 1)).flatten = (queue.take k).flatten ++ queue[k] := by
      rw [List.take_add_one, hg, List.flatten_append]; simp
    have hsplit : queue.flatten = (queue.take k).flatten ++ (queue[k] ++ (queue.drop (k + 1)).flatten) := by
      conv => lhs; rw [← List.take_append_drop k queue, List.drop_eq_getElem_cons hlt]
      rw [List.flatten_append, List.flatten_cons]
    by_cases hhere : nb ≤ (queue.take (k + 1)).flatten.length
    · rw [htk, List.length_append] at hhere
      have hn : (queue.take k).flatten.length + (nb - (queue.take k).flatten.length) = nb := by omega
      have htake : queue.flatten.take nb = (queue.take k).flatten ++ queue[k].take (nb - (queue.take k).flatten.length) := by
        rw [hsplit, List.take_append, List.take_of_length_le hge, List.take_append_of_le_length (by omega)]
      have hcs' := sameConns_more (d := queue[k].take (nb - (queue.take k).flatten.length)) hcs
      rw [← htake] at hcs'
      cases w with
      | nobufs =>
        refine ⟨[.write (nb - (queue.take k).flatten.length) (some .nobufs)], _, ?_, hcs', rfl, rfl⟩
        rw [run, tr_step rfl (.writeNobufs rfl hg (by omega))]
        simp only [Option.bind_some, run, hn]
      | other e =>
        refine ⟨[.write (nb - (queue.take k).flatten.length) (some (.other e))], _, ?_, hcs', rfl, rfl⟩
        rw [run, tr_step rfl (.writeErr rfl hg (by omega))]
        simp only [Option.bind_some, run, hn]
    · have hlt2 : k + 1 < queue.length := by
        rcases Nat.lt_or_ge (k + 1) queue.length with h | h
        · exact h
        · rw [List.take_of_length_le h] at hhere; omega
      obtain ⟨es, cs', h1, h2, h3, h4⟩ := ih (k + 1) (addWrite queue[k] cs) (by omega) hlt2 (by omega) hle (by
        rw [htk]; exact sameConns_more hcs)
      refine ⟨.write queue[k].length none :: es, cs', ?_, h2, by simpa [seen] using h3, by simpa [frames] using h4⟩
      rw [run, tr_step rfl (.writeOk rfl hg)]
      simp only [Option.bind_some]
      rw [htk, List.length_append] at h1
      exact h1

/-! ## Something is queued while `WriteTo` runs -/

def Queued (s : State) : Prop := ∀ f k n, s.pc = .write f k n → s.queue ≠ []

theorem queued_step {t : Transport} {s s' : State} {e : Event} (hq : Queued s) (h : step t s e = some s') : Queued s' := by
  obtain ⟨_, htr⟩ := step_tr h
  intro f k n hpc'
  cases htr
  case sendOk => simp
  case loopMore hne => exact hne
  case writeOk hpc hx => exact hq _ _ _ hpc
  case closeOut => simp at hpc'
  case testOut => simp at hpc'
  case testNil => simp at hpc'
  case errConn fin e hpc _ => cases fin <;> simp [ret] at hpc'
  case unlock fin hpc => cases fin <;> simp [ret] at hpc'
  all_goals first
    | exact hq _ _ _ hpc'
    | simp at hpc'

theorem queued_run {t : Transport} {s s' : State} {es : List Event} (hq : Queued s) (h : run t s es = some s') : Queued s' := by
  induction es generalizing s with
  | nil => simp only [run, Option.some.injEq] at h; subst h; exact hq
  | cons e r ih =>
    simp only [run] at h
    cases hst : step t s e with
    | none => rw [hst] at h; simp at h
    | some x => rw [hst] at h; exact ih (queued_step hq hst) h

theorem queued_init : Queued init := by intro f k n h; simp [init] at h

/-! ## The theorems -/

theorem seen_append (a b : List Event) : seen (a ++ b) = seen a ++ seen b := by
  induction a with
  | nil => rfl
  | cons e r ih =>
    cases e
    case write nb x => cases x <;> simp [seen, ih]
    all_goals simp [seen, ih]

/-- One event of a sender with `writev` is some events of the sender without. -/
theorem stepV_same {t : Transport} {a b a' : State} {e : VEvent} (hs : SameState a b) (hq : Queued b) (h : stepV t a e = some a') :
    ∃ es b', run t b es = some b' ∧ SameState a' b' ∧ seen es = seenV [e] ∧ frames t es = framesV t [e] := by
  cases e with
  | ev e =>
    obtain ⟨b', h1, h2⟩ := step_same hs h
    exact ⟨[e], b', by simp [run, h1], h2, by simp [seenV], by simp [framesV]⟩
  | writev nb r =>
    obtain ⟨q, cs, out, lk, er, ea, ec, ecl, cr, pc⟩ := a
    obtain ⟨q', cs', out', lk', er', ea', ec', ecl', cr', pc'⟩ := b
    obtain ⟨h1, hcs, h3, h4, h5, h6, h7, h8, h9, h10⟩ := hs
    simp only at h1 hcs h3 h4 h5 h6 h7 h8 h9 h10
    subst h1 h3 h4 h5 h6 h7 h8 h9 h10
    simp only [stepV] at h
    split at h
    · simp at h
    rename_i hcr
    have hcr : cr = false := by simpa using hcr
    subst hcr
    split at h
    rotate_left
    · simp at h
    rename_i fin
    have hne := hq fin 0 0 rfl
    split at h
    rotate_left
    · simp at h
    rename_i hle
    cases r with
    | none =>
      simp only at h
      split at h
      · rename_i hnb
        subst hnb
        simp only [Option.some.injEq] at h
        subst h
        obtain ⟨es, cs2, hr, hc2, hse, hfr⟩ := writes_all t fin q out lk ea ec ecl er cs (q.length - 0) 0 cs' rfl (by omega)
          (sameConns_start hcs)
        refine ⟨es, _, hr, ⟨rfl, ?_, rfl, rfl, rfl, rfl, rfl, rfl, rfl, rfl⟩, by simp [hse, seenV], by simp [hfr, framesV]⟩
        simpa only [List.take_length] using hc2
      · simp at h
    | some w =>
      obtain ⟨es, cs2, hr, hc2, hse, hfr⟩ := writes_some t fin q out lk ea ec ecl er cs w nb (q.length - 0) 0 cs' rfl
        (List.length_pos_iff.mpr hne) (by simp) hle (sameConns_start hcs)
      refine ⟨es, _, hr, ?_, by simp [hse, seenV], by simp [hfr, framesV]⟩
      cases w <;> simp only [Option.some.injEq] at h <;> subst h <;>
        exact ⟨rfl, hc2, rfl, rfl, rfl, rfl, rfl, rfl, rfl, rfl⟩

theorem runV_same {t : Transport} {a b a' : State} {es' : List VEvent} (hs : SameState a b) (hq : Queued b) (h : runV t a es' = some a') :
    ∃ es b', run t b es = some b' ∧ SameState a' b' ∧ seen es = seenV es' ∧ frames t es = framesV t es' := by
  induction es' generalizing a b with
  | nil =>
    simp only [runV, Option.some.injEq] at h
    subst h
    exact ⟨[], b, rfl, hs, rfl, rfl⟩
  | cons e r ih =>
    simp only [runV] at h
    cases hst : stepV t a e with
    | none => rw [hst] at h; simp at h
    | some a1 =>
      rw [hst] at h
      obtain ⟨es1, b1, h1, h2, h3, h4⟩ := stepV_same hs hq hst
      obtain ⟨es2, b2, g1, g2, g3, g4⟩ := ih h2 (queued_run hq h1) h
      refine ⟨es1 ++ es2, b2, run_append h1 g1, g2, ?_, ?_⟩
      · rw [seen_append, h3, g3]
        cases e with
        | ev e => simp [seenV]
        | writev nb r => cases r <;> simp [seenV]
      · rw [frames_append, h4, g4]
        cases e <;> simp [framesV]

/-- **C76.** Whatever happens with connections that take several frames at once could have happened with connections that
take them one by one: the calls, the ticks, the connects and the errors are the same, in the same order, and so is what
a program, the receiver of each connection and the sender itself can see at the end. -/
theorem C76_same (t : Transport) (es' : List VEvent) (s' : State) (h : HistoryV t es' s') :
    ∃ es s, History t es s ∧ SameState s' s ∧ seen es = seenV es' ∧ frames t es = framesV t es' :=
  runV_same (SameState.refl init) queued_init h

/-- **C76**, conversely: taking the frames one by one is a particular case. -/
theorem C76_converse (t : Transport) (es : List Event) (s : State) (h : History t es s) :
    HistoryV t (es.map .ev) s ∧ seenV (es.map .ev) = seen es ∧ framesV t (es.map .ev) = frames t es := by
  refine ⟨?_, ?_, ?_⟩
  · have : ∀ (es : List Event) (a : State), runV t a (es.map .ev) = run t a es := by
      intro es
      induction es with
      | nil => intro a; rfl
      | cons e r ih => intro a; simp only [List.map_cons, runV, run, stepV, ih]
    exact (this es init).trans h
  · clear h
    induction es with
    | nil => rfl
    | cons e r ih => simp only [List.map_cons, seenV, ih]; rw [← seen_append]; rfl
  · clear h
    induction es with
    | nil => rfl
    | cons e r ih => simp only [List.map_cons, framesV, ih]; rw [← frames_append]; rfl

theorem same_wire {a b : List Conn} (h : Each SameConn a b) :
    (a.map fun c => c.writes.flatten) = b.map fun c => c.writes.flatten := by
  induction h with
  | nil => rfl
  | cons h1 _ ih => simp only [List.map_cons, h1.1, ih]

/-- **C76.** Exactly once, in order (as C34): what was written, then what is still queued, are the frames of the messages
accepted by `Send`. -/
theorem C76_exactly_once (t : Transport) (es : List VEvent) (s : State) (h : HistoryV t es s) :
    wire s ++ s.queue.flatten.drop (match s.pc with | .write _ _ n => n | _ => 0) = (framesV t es).flatten := by
  obtain ⟨es1, s1, h1, h2, _, h4⟩ := C76_same t es s h
  have := C34_exactly_once t es1 s1 h1
  rw [← h4, ← this, h2.queue, h2.pc]
  unfold wire
  rw [same_wire h2.conns]
  rfl

theorem runV_split {t : Transport} {a b : State} {es es' : List VEvent} (h : runV t a (es ++ es') = some b) :
    ∃ x, runV t a es = some x ∧ runV t x es' = some b := by
  induction es generalizing a with
  | nil => exact ⟨a, rfl, h⟩
  | cons e r ih =>
    simp only [List.cons_append, runV] at h ⊢
    cases hst : stepV t a e with
    | none => rw [hst] at h; simp at h
    | some x => rw [hst] at h; simpa using ih h

/-- **C76.** `End` flushes (as C35): when it has returned, everything accepted before was written. -/
theorem C76_end_flushes (t : Transport) (before after : List VEvent) (s : State)
    (h : HistoryV t (before ++ .ev .endCall :: after) s) (hret : s.endCompleted = true) (hal : s.crashed = false) :
    (framesV t before).flatten <+: wire s := by
  obtain ⟨x, h1, h2⟩ := runV_split h
  simp only [runV, stepV] at h2
  obtain ⟨es1, x1, g1, g2, _, g4⟩ := runV_same (SameState.refl init) queued_init h1
  cases hst : step t x .endCall with
  | none => rw [hst] at h2; simp at h2
  | some y =>
    rw [hst] at h2
    obtain ⟨y1, k1, k2⟩ := step_same g2 hst
    have hq1 := queued_run queued_init g1
    obtain ⟨es2, s1, m1, m2, _, _⟩ := runV_same k2 (queued_step hq1 k1) h2
    have := C35_end_flushes t es1 es2 s1 (run_append g1 (by rw [run, k1]; exact m1)) (by rw [← m2.endCompleted]; exact hret)
      (by rw [← m2.crashed]; exact hal)
    rw [g4] at this
    unfold wire at this ⊢
    rw [same_wire m2.conns]; exact this

theorem seen_fails {es : List Event} (h : ∀ x ∈ seen es, seenFails x = false) : ∀ e ∈ es, fails e = false := by
  induction es with
  | nil => simp
  | cons e r ih =>
    have hc : seen (e :: r) = seen [e] ++ seen r := seen_append [e] r
    rw [hc] at h
    intro x hx
    rcases List.mem_cons.mp hx with rfl | hx
    · cases x
      case connect c =>
        cases c with
        | none => rfl
        | some v => have := h (.connect (some v)) (by simp [seen]); simp [seenFails] at this
      case write nb c =>
        cases c with
        | none => rfl
        | some v => have := h (.failed v) (by simp [seen]); simp [seenFails] at this
      all_goals rfl
    · exact ih (fun y hy => h y (List.mem_append_right _ hy)) x hx

/-- **C76.** A turn of the sender flushes (as C39): between two ticks without a failure, everything accepted before the
first one is written. -/
theorem C76_flush (t : Transport) (before mid : List VEvent) (s : State)
    (h : HistoryV t (before ++ .ev .tick :: mid ++ [.ev .tick]) s) (hok : ∀ x ∈ seenV mid, seenFails x = false) :
    (framesV t before).flatten <+: wire s := by
  rw [List.append_assoc] at h
  obtain ⟨x, h1, h2⟩ := runV_split h
  simp only [List.cons_append, runV, stepV] at h2
  obtain ⟨es1, x1, g1, g2, _, g4⟩ := runV_same (SameState.refl init) queued_init h1
  cases hst : step t x .tick with
  | none => rw [hst] at h2; simp at h2
  | some y =>
    rw [hst] at h2
    obtain ⟨y1, k1, k2⟩ := step_same g2 hst
    have hq2 := queued_step (queued_run queued_init g1) k1
    obtain ⟨z, h3, h4⟩ := runV_split h2
    obtain ⟨es2, z1, m1, m2, m3, _⟩ := runV_same k2 hq2 h3
    simp only [runV, stepV] at h4
    cases hst2 : step t z .tick with
    | none => rw [hst2] at h4; simp at h4
    | some w =>
      rw [hst2] at h4
      simp only [Option.bind_some, Option.some.injEq] at h4
      subst h4
      obtain ⟨w1, n1, n2⟩ := step_same m2 hst2
      have := C39_flush t es1 es2 w1 (by
        rw [List.append_assoc]
        refine run_append g1 ?_
        rw [List.cons_append, run, k1]
        exact run_append m1 (by simp [run, n1])) (seen_fails (by rw [m3]; exact hok))
      rw [g4] at this
      unfold wire at this ⊢
      rw [same_wire n2.conns]; exact this

/-- **C76.** The first connection carries whole frames, followed by at most the beginning of one (as C37). -/
theorem C76_first (t : Transport) (es : List VEvent) (s : State) (h : HistoryV t es s) (c : Conn) (r : List Conn)
    (hc : s.conns = c :: r) : WholeFrames (framesV t es) c.writes.flatten := by
  obtain ⟨es1, s1, h1, h2, _, h4⟩ := C76_same t es s h
  have hcs := h2.conns
  rw [hc] at hcs
  generalize hg : s1.conns = g at hcs
  cases hcs with
  | cons k1 _ =>
    rw [k1.1, ← h4]
    exact C37_first_partial t es1 s1 h1 _ _ hg

theorem seen_sent (es : List Event) : seenSent (seen es) = sent es := by
  induction es with
  | nil => rfl
  | cons e r ih =>
    cases e
    case write nb x => cases x <;> simp [seen, seenSent, sent, ih]
    all_goals simp [seen, seenSent, sent, ih]

theorem seen_errors (es : List Event) : seenErrors (seen es) = errors es := by
  induction es with
  | nil => rfl
  | cons e r ih =>
    cases e
    case write nb x =>
      cases x with
      | none => simp [seen, errors, ih]
      | some w => cases w <;> simp [seen, seenErrors, errors, ih]
    case connect x => cases x <;> simp [seen, seenErrors, errors, ih]
    all_goals simp [seen, seenErrors, errors, ih]

theorem seen_received (es : List Event) : seenReceived (seen es) = received es := by
  induction es with
  | nil => rfl
  | cons e r ih =>
    cases e
    case write nb x => cases x <;> simp [seen, seenReceived, received, ih]
    all_goals simp [seen, seenReceived, received, ih]

/-- **C76.** Every error is reported, once and in order (as C59). -/
theorem C76_reported (t : Transport) (es : List VEvent) (s : State) (h : HistoryV t es s) :
    seenErrors (seenV es) = seenReceived (seenV es) ++ s.errs ++ (match s.pc with | .errConn _ e => [e] | .errWrite _ e => [e] | _ => []) := by
  obtain ⟨es1, s1, h1, h2, h3, _⟩ := C76_same t es s h
  rw [← h3, seen_errors, seen_received, h2.errs, h2.pc]
  exact C59_reported t es1 s1 h1

/-- A history with two messages in one `writev`, of which a frame and a half are accepted; then another connection takes
the rest and a third message. -/
def exWritev : List VEvent :=
  [.ev (.send (exMsg b!"x")), .ev (.send (exMsg b!"y")), .ev .tick, .ev .tau, .ev (.connect none), .ev .tau, .ev .tau,
   .writev 59 (some (.other 7)), .ev .tau, .ev .tau, .ev (.send (exMsg b!"z")), .ev .tick, .ev .tau, .ev (.connect none), .ev .tau, .ev .tau,
   .writev 58 none, .ev .tau, .ev .tau, .ev .tick]

example : ∃ s, HistoryV .lfEnded exWritev s ∧ s.queue = [] ∧ s.errs = [.write 7] ∧
    s.conns.map (fun c => c.writes.flatten) =
      [b!"<14>1 1970-01-01T00:00:00Z h a 1 - - x\n<14>1 1970-01-01T00:", b!"00:00Z h a 1 - - y\n<14>1 1970-01-01T00:00:00Z h a 1 - - z\n"] := by
  refine ⟨_, (by unfold HistoryV; decide +kernel : HistoryV .lfEnded exWritev ⟨[], [⟨[b!"<14>1 1970-01-01T00:00:00Z h a 1 - - x\n<14>1 1970-01-01T00:"], false⟩,
    ⟨[b!"00:00Z h a 1 - - y\n<14>1 1970-01-01T00:00:00Z h a 1 - - z\n"], false⟩], true, false, [.write 7], false, false, false, false, .test false⟩), rfl, rfl, rfl⟩

/-- **C76.** On datagram sockets, where it would matter, frames are written one by one: a local connection to a `unixgram`
socket never uses `writev`, whether the network was given or guessed, and a connection to a stream socket may. -/
theorem C76_datagrams (accepts : Bytes → Bytes → Bool) (dialErr : Err) (c : Net.Local) (p : Bytes × Bytes)
    (h : (Net.Local.connect accepts dialErr c).conn = .ok p) :
    (Net.Local.connect accepts dialErr c).oneByOne = true ↔ p.1 = b!"unixgram" := by
  unfold Net.LocalResult.oneByOne
  rw [decide_eq_true_iff]
  unfold Net.Local.connect at h ⊢
  split at h
  · rename_i hc
    rw [if_pos hc]
    simp only at h ⊢
    split at h
    · simp only [Except.ok.injEq] at h; subst h; exact Iff.rfl
    · simp at h
  · rename_i hc
    rw [if_neg hc]
    split at h
    · rename_i hc2
      rw [if_pos hc2]
      simp only at h ⊢
      split at h <;> rename_i hr
      · simp only [Except.ok.injEq] at h; subst h; exact Iff.rfl
      · simp at h
    · rename_i hc2
      rw [if_neg hc2]
      simp only at h ⊢
      split at h <;> rename_i hr
      · simp only [Except.ok.injEq] at h; subst h; exact Iff.rfl
      · simp at h

example : (Net.Local.connect (fun n a => n == b!"unixgram" && a == b!"/dev/log") .posNotFound ⟨[], []⟩).conn = .ok (b!"unixgram", b!"/dev/log") ∧
    (Net.Local.connect (fun n a => n == b!"unixgram" && a == b!"/dev/log") .posNotFound ⟨[], []⟩).oneByOne = true := by decide

/-- **C53**, with connections that take several frames at once (`writev`): what a receiver delivers of the first
connection are the messages sent, in order. -/
theorem C53_writev_partial (es : List VEvent) (s : State) (hs : HistoryV .rfc5425 es s)
    (hmsgs : ∀ m ∈ seenSent (seenV es), Transmissible m)
    (c : Sender.Conn) (r : List Sender.Conn) (hc : s.conns = c :: r)
    (lenQueue : Nat) (er : List Recv.Event) (q : Recv.State) (hq : Recv.run .rfc5425 lenQueue Recv.init er = some q) (hcr : q.crashed = false)
    (i : Nat) (k : Recv.Conn) (hi : q.conns[i]? = some k)
    (hwire : arrived (readsOf i er) <+: c.writes.flatten) :
    Each IsReceived ((seenSent (seenV es)).take (ofConn i q.got).length) (ofConn i q.got) := by
  obtain ⟨es1, s1, h1, h2, h3, h4⟩ := C76_same _ es s hs
  have hcs := h2.conns
  rw [hc] at hcs
  generalize hg : s1.conns = g at hcs
  cases hcs with
  | cons k1 _ =>
    rw [← h3, seen_sent] at hmsgs ⊢
    exact C53_in_order_partial es1 s1 h1 hmsgs _ _ hg lenQueue er q hq hcr i k hi (by rw [← k1.1]; exact hwire)

/-- **C72**, the same for LF and NUL. -/
theorem C72_writev_partial (t : Transport) (z : UInt8) (ht : t = .lfEnded ∧ z = 10 ∨ t = .zeroEnded ∧ z = 0)
    (es : List VEvent) (s : State) (hs : HistoryV t es s) (hmsgs : ∀ m ∈ seenSent (seenV es), TransmissibleLine z m)
    (c : Sender.Conn) (r : List Sender.Conn) (hc : s.conns = c :: r)
    (lenQueue : Nat) (er : List Recv.Event) (q : Recv.State) (hq : Recv.run t lenQueue Recv.init er = some q) (hcr : q.crashed = false)
    (i : Nat) (k : Recv.Conn) (hi : q.conns[i]? = some k) (hwire : arrived (readsOf i er) <+: c.writes.flatten) :
    Each IsReceived ((seenSent (seenV es)).take (ofConn i q.got).length) (ofConn i q.got) := by
  obtain ⟨es1, s1, h1, h2, h3, h4⟩ := C76_same _ es s hs
  have hcs := h2.conns
  rw [hc] at hcs
  generalize hg : s1.conns = g at hcs
  cases hcs with
  | cons k1 _ =>
    rw [← h3, seen_sent] at hmsgs ⊢
    exact C72_in_order_partial t z ht es1 s1 h1 hmsgs _ _ hg lenQueue er q hq hcr i k hi (by rw [← k1.1]; exact hwire)

end Syslog5424
