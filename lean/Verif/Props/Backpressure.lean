import Verif.Props.Wire
import Verif.Props.Race
/-! # C88: a receiver that nobody reads stops reading -/
namespace Syslog5424
open Spec Recv

/-- What one event does to a connection: it is new; or it stays as it is but for what waits to be sent; or it is read. -/
theorem conn_change {t : Transport} {q : Nat} {s s' : Recv.State} {e : Recv.Event} (hs : Recv.step t q s e = some s')
    (hc : s'.crashed = false) {i : Nat} {c' : Recv.Conn} (hi : s'.conns[i]? = some c') :
    (c' = Conn.new ∧ i = s.conns.length ∧ readsOf i [e] = []) ∨
    ∃ c, s.conns[i]? = some c ∧
      ((c'.tok = c.tok ∧ c'.pending.length ≤ c.pending.length ∧ readsOf i [e] = []) ∨
       ∃ r b, readsOf i [e] = [r] ∧ r.Fits c.tok ∧ Tok.step t c.tok r = .ret (b, c'.tok) ∧
         c'.pending = c'.tok.out.drop c.tok.out.length) := by
  unfold Recv.step at hs
  split at hs
  · simp at hs
  have set : ∀ {x : Recv.State} {j : Nat} {c d : Recv.Conn}, x.conns = s.conns → s.conns[j]? = some c → s' = x.setConn j d →
      d.tok = c.tok → d.pending.length ≤ c.pending.length → readsOf i [e] = [] →
      ∃ c, s.conns[i]? = some c ∧ c'.tok = c.tok ∧ c'.pending.length ≤ c.pending.length ∧ readsOf i [e] = [] := by
    intro x j c d hx hj hs' h1 h2 h3
    subst hs'
    simp only [State.setConn, hx] at hi
    by_cases hij : j = i
    · subst hij
      rw [List.getElem?_set_self (List.getElem?_eq_some_iff.mp hj).1] at hi
      simp only [Option.some.injEq] at hi
      subst hi
      exact ⟨c, hj, h1, h2, h3⟩
    · rw [List.getElem?_set_ne hij] at hi
      exact ⟨c', hi, rfl, Nat.le_refl _, h3⟩
  have keep : s'.conns = s.conns → readsOf i [e] = [] →
      ∃ c, s.conns[i]? = some c ∧ c'.tok = c.tok ∧ c'.pending.length ≤ c.pending.length ∧ readsOf i [e] = [] := by
    intro h1 h2
    exact ⟨c', h1 ▸ hi, rfl, Nat.le_refl _, h2⟩
  have fin : (∃ c, s.conns[i]? = some c ∧ c'.tok = c.tok ∧ c'.pending.length ≤ c.pending.length ∧ readsOf i [e] = []) →
      (c' = Conn.new ∧ i = s.conns.length ∧ readsOf i [e] = []) ∨
    ∃ c, s.conns[i]? = some c ∧
      ((c'.tok = c.tok ∧ c'.pending.length ≤ c.pending.length ∧ readsOf i [e] = []) ∨
       ∃ r b, readsOf i [e] = [r] ∧ r.Fits c.tok ∧ Tok.step t c.tok r = .ret (b, c'.tok) ∧
         c'.pending = c'.tok.out.drop c.tok.out.length) := by
    rintro ⟨c, h1, h2⟩
    exact .inr ⟨c, h1, .inl h2⟩
  cases e with
  | tau =>
    refine fin ?_
    simp only at hs
    split at hs <;> repeat' (split at hs)
    all_goals first
      | (simp at hs; done)
      | (simp only [Option.some.injEq] at hs; subst hs; exact keep rfl rfl)
  | acceptErr =>
    refine fin ?_
    simp only at hs
    split at hs
    · simp only [Option.some.injEq] at hs; subst hs; exact keep rfl rfl
    · simp at hs
  | nilStart =>
    refine fin ?_
    simp only at hs
    split at hs
    · simp only [Option.some.injEq] at hs; subst hs; exact keep rfl rfl
    · simp at hs
  | recv =>
    refine fin ?_
    simp only at hs
    split at hs
    · simp at hs
    · simp only [Option.some.injEq] at hs; subst hs; exact keep rfl rfl
  | recvClosed =>
    refine fin ?_
    simp only at hs
    split at hs
    · simp only [Option.some.injEq] at hs; subst hs; exact keep rfl rfl
    · simp at hs
  | endCall =>
    refine fin ?_
    simp only at hs
    split at hs <;> simp only [Option.some.injEq] at hs <;> subst hs <;> exact keep rfl rfl
  | recvErr =>
    refine fin ?_
    simp only at hs
    split at hs
    · simp only [Option.some.injEq] at hs; subst hs; exact keep rfl rfl
    · simp at hs
  | sendErr j =>
    refine fin ?_
    simp only at hs
    split at hs
    · simp at hs
    rename_i c hj
    split at hs
    · simp only [Option.some.injEq] at hs; exact set (x := { s with errs := s.errs + 1 }) rfl hj hs.symm rfl (Nat.le_refl _) rfl
    · simp at hs
  | sendMsg j =>
    refine fin ?_
    simp only at hs
    split at hs
    · simp at hs
    rename_i c hj
    split at hs
    · simp at hs
    rename_i d r hp
    split at hs
    · simp at hs
    split at hs
    · simp only [Option.some.injEq] at hs; subst hs; exact keep rfl rfl
    split at hs
    · simp only [Option.some.injEq] at hs
      exact set (x := { s with pipeline := s.pipeline ++ [(j, d)] }) rfl hj hs.symm rfl (by simp [hp]) rfl
    · simp at hs
  | close j =>
    refine fin ?_
    simp only at hs
    split at hs
    · simp at hs
    rename_i c hj
    split at hs
    · simp only [Option.some.injEq] at hs; exact set (x := s) rfl hj hs.symm rfl (Nat.le_refl _) rfl
    · simp at hs
  | handoff j =>
    refine fin ?_
    simp only at hs
    split at hs
    · simp at hs
    rename_i c hj
    split at hs
    · simp at hs
    rename_i d r hp
    split at hs
    · simp at hs
    · simp only [Option.some.injEq] at hs
      exact set (x := { s with got := s.got ++ [(j, d)] }) rfl hj hs.symm rfl (by simp [hp]) rfl
  | acceptOk =>
    simp only at hs
    split at hs
    · simp only [Option.some.injEq] at hs
      subst hs
      simp only at hi
      rcases Nat.lt_trichotomy i s.conns.length with hlt | heq | hgt
      · rw [List.getElem?_append_left hlt] at hi
        exact fin ⟨c', hi, rfl, Nat.le_refl _, rfl⟩
      · subst heq
        simp at hi
        exact .inl ⟨hi.symm, rfl, rfl⟩
      · rw [List.getElem?_eq_none (by simp; omega)] at hi; simp at hi
    · simp at hs
  | read j r =>
    simp only at hs
    split at hs
    · simp at hs
    rename_i c hj
    split at hs
    rotate_left
    · simp at hs
    rename_i hg
    split at hs
    · rename_i b tok hst
      simp only [Option.some.injEq] at hs
      subst hs
      simp only [State.setConn] at hi
      by_cases hij : j = i
      · subst hij
        rw [List.getElem?_set_self (List.getElem?_eq_some_iff.mp hj).1] at hi
        simp only [Option.some.injEq] at hi
        subst hi
        exact .inr ⟨c, hj, .inr ⟨r, b, by simp [readsOf], hg.2.2.2, hst, rfl⟩⟩
      · rw [List.getElem?_set_ne hij] at hi
        exact fin ⟨c', hi, rfl, Nat.le_refl _, by simp [readsOf, hij]⟩
    · simp only [Option.some.injEq] at hs; subst hs; simp at hc
    · simp at hs

/-- The bytes of connection `i` are accounted for, piece by piece; a piece has at most the size of the buffer, and so have
together the pieces of one read and the bytes that wait. -/
def Accounted (t : Transport) (es : List Recv.Event) (i : Nat) (c : Recv.Conn) : Prop :=
  ∃ (k : Nat) (pieces : List Bytes), arrived (readsOf i es) = pieces.flatten ++ c.tok.pending ∧
    Each (fun p (d : Tok.Delivered) => TakenFrom t p d.msg d.err) pieces c.tok.out ∧ (∀ p ∈ pieces, p.length ≤ 65536) ∧
    k ≤ pieces.length ∧ (pieces.drop k).flatten.length + c.tok.pending.length ≤ 65536 ∧ c.pending.length + k ≤ c.tok.out.length

theorem each_length_eq {α β : Type} {R : α → β → Prop} {as : List α} {bs : List β} (h : Each R as bs) : as.length = bs.length := by
  induction h with
  | nil => rfl
  | cons _ _ ih => simp [ih]

theorem piece_le_flatten {p : Bytes} {ps : List Bytes} (h : p ∈ ps) : p.length ≤ ps.flatten.length := by
  induction ps with
  | nil => simp at h
  | cons x r ih =>
    simp only [List.flatten_cons, List.length_append]
    rcases List.mem_cons.1 h with rfl | h
    · omega
    · have := ih h; omega

theorem accounted {t : Transport} {q : Nat} {es : List Recv.Event} {s : Recv.State} (h : Recv.run t q Recv.init es = some s)
    (hc : s.crashed = false) : ∀ i c, s.conns[i]? = some c → Accounted t es i c := by
  refine run_induction (P := fun es s => s.crashed = false → ∀ i c, s.conns[i]? = some c → Accounted t es i c) ?_ ?_ h hc
  · intro _ i c hi; simp [Recv.init] at hi
  intro es e s s' hrun ih hs hc i c' hi
  have hc0 := step_not_crashed hs
  have inv := inv_run hrun hc0
  rcases conn_change hs hc hi with ⟨rfl, rfl, hr⟩ | ⟨c, hci, hch⟩
  · refine ⟨0, [], ?_, .nil, by simp, by simp, ?_, ?_⟩
    · rw [readsOf_append, hr, (inv.none _ (Nat.le_refl _)).2.2]; rfl
    · rw [show Conn.new.tok.pending = [] from pending_init]; simp
    · simp [Conn.new, Tok.init]
  · obtain ⟨k, pieces, a1, a2, a3, a4, a5, a6⟩ := ih hc0 i c hci
    rcases hch with ⟨h1, h2, h3⟩ | ⟨r, b, h1, h2, h3, h4⟩
    · refine ⟨k, pieces, ?_, h1 ▸ a2, a3, a4, h1 ▸ a5, ?_⟩
      · rw [readsOf_append, h3, List.append_nil, h1]; exact a1
      · rw [h1]; omega
    · have hm := (inv.conn i c hci).mem
      obtain ⟨p1, d1, g1, g2, g3⟩ := step_pieces hm h2 h3
      have hl := each_length_eq a2
      have hlen : (c.tok.pending ++ r.data).length ≤ 65536 := by
        have := hm.size
        have := hm.fit
        have := hm.pending_length
        simp only [Tok.Read.Fits, Tok.State.room, Tok.readBuffer] at *
        simp only [List.length_append]
        omega
      refine ⟨pieces.length, pieces ++ p1, ?_, g2 ▸ a2.append g3, ?_, by simp, ?_, ?_⟩
      · rw [readsOf_append, h1]
        simp only [arrived, List.flatMap_append, List.flatMap_cons, List.flatMap_nil, List.append_nil]
        rw [show (readsOf i es).flatMap Tok.Read.data = _ from a1, List.append_assoc, g1]
        simp
      · intro p hp
        rcases List.mem_append.1 hp with hp | hp
        · exact a3 p hp
        · have := piece_le_flatten hp
          rw [g1, List.length_append] at hlen
          omega
      · rw [List.drop_left]
        rw [g1, List.length_append] at hlen
        exact hlen
      · rw [h4, g2, List.drop_left, hl, List.length_append]; omega

theorem each_split {α β : Type} {R : α → β → Prop} {xs ys : List β} : ∀ {ps : List α}, Each R ps (xs ++ ys) →
    Each R (ps.take xs.length) xs ∧ Each R (ps.drop xs.length) ys := by
  induction xs with
  | nil => intro ps h; exact ⟨by simpa using .nil, by simpa using h⟩
  | cons x xs ih =>
    intro ps h
    rw [List.cons_append] at h
    cases h with
    | cons h1 h2 =>
      obtain ⟨g1, g2⟩ := ih h2
      exact ⟨.cons h1 g1, g2⟩

theorem flatten_le_mul {ps : List Bytes} {n : Nat} (h : ∀ p ∈ ps, p.length ≤ n) : ps.flatten.length ≤ n * ps.length := by
  induction ps with
  | nil => simp
  | cons p r ih =>
    have h1 := h p (by simp)
    have h2 := ih (fun x hx => h x (by simp [hx]))
    simp only [List.flatten_cons, List.length_append, List.length_cons, Nat.mul_add, Nat.mul_one]
    omega

/-- C88: whatever the peers send and however the goroutines are scheduled, the bytes that a receiver has read from a
connection and has not given to `Receive` are at most 64 KiB for every pair of that connection in the queue, and 64 KiB
more. A connection whose messages are not received is not read any further. -/
theorem C88_backpressure (t : Transport) (lenQueue : Nat) (es : List Recv.Event) (s : Recv.State)
    (h : Recv.run t lenQueue Recv.init es = some s) (hc : s.crashed = false) (i : Nat) (c : Recv.Conn) (hi : s.conns[i]? = some c) :
    ∃ (pieces : List Bytes) (rest : Bytes), arrived (readsOf i es) = pieces.flatten ++ rest ∧
      Each (fun p (d : Tok.Delivered) => TakenFrom t p d.msg d.err) pieces (ofConn i s.got) ∧
      rest.length ≤ 65536 * ((ofConn i s.pipeline).length + 1) := by
  obtain ⟨k, pieces, a1, a2, a3, a4, a5, a6⟩ := accounted h hc i c hi
  have hout := (inv_run h hc).conn i c hi |>.out
  have hl := each_length_eq a2
  rw [← hout, List.append_assoc] at a2
  obtain ⟨b1, b2⟩ := each_split a2
  refine ⟨pieces.take (ofConn i s.got).length, (pieces.drop (ofConn i s.got).length).flatten ++ c.tok.pending, ?_, b1, ?_⟩
  · rw [a1, ← List.append_assoc, ← List.flatten_append, List.take_append_drop]
  · obtain ⟨b3, b4⟩ := each_split b2
    generalize hP : pieces.drop (ofConn i s.got).length = P at b2 b3 b4 ⊢
    have e : P = P.take (ofConn i s.pipeline).length ++ P.drop (ofConn i s.pipeline).length := (List.take_append_drop _ _).symm
    have l1 : (P.take (ofConn i s.pipeline).length).flatten.length ≤ 65536 * (P.take (ofConn i s.pipeline).length).length :=
      flatten_le_mul fun p hp => a3 p (List.mem_of_mem_drop (hP ▸ List.mem_of_mem_take hp))
    have l2 : (P.drop (ofConn i s.pipeline).length).flatten.length ≤ (pieces.drop k).flatten.length := by
      rw [← hP, List.drop_drop]
      have hle : k ≤ (ofConn i s.got).length + (ofConn i s.pipeline).length := by
        rw [← hout] at a6
        simp only [List.length_append] at a6
        omega
      obtain ⟨m, hm⟩ := Nat.exists_eq_add_of_le hle
      rw [hm, ← List.drop_drop]
      generalize pieces.drop k = Q
      have : Q.flatten.length = ((Q.take m).flatten ++ (Q.drop m).flatten).length := by rw [← List.flatten_append, List.take_append_drop]
      rw [this, List.length_append]
      omega
    have l3 : P.flatten.length = ((P.take (ofConn i s.pipeline).length).flatten ++ (P.drop (ofConn i s.pipeline).length).flatten).length := by
      rw [← List.flatten_append, List.take_append_drop]
    have l4 := each_length_eq b3
    rw [List.length_append] at l3 ⊢
    rw [l4] at l1
    omega

/-- C88: the queue of a receiver never holds more than the length given to `NewReceiver`, and its error channel never more
than ten errors. -/
theorem C88_queues (t : Transport) (lenQueue : Nat) (es : List Recv.Event) (s : Recv.State)
    (h : Recv.run t lenQueue Recv.init es = some s) : s.pipeline.length ≤ lenQueue ∧ s.errs ≤ 10 := by
  refine run_induction (P := fun _ s => s.pipeline.length ≤ lenQueue ∧ s.errs ≤ 10) ⟨by simp [Recv.init], by simp [Recv.init]⟩ ?_ h
  intro es e s s' _ ih hs
  obtain ⟨i1, i2⟩ := ih
  unfold Recv.step at hs
  split at hs
  · simp at hs
  cases e <;> simp only at hs <;> repeat' (split at hs)
  all_goals first
    | (simp at hs; done)
    | (simp only [Option.some.injEq] at hs; subst hs; simp_all [State.setConn, errCap]; omega)
    | (simp only [Option.some.injEq] at hs; subst hs; simp_all [State.setConn]; done)

theorem got_nil {t : Transport} {q : Nat} {es : List Recv.Event} {s : Recv.State} (h : Recv.run t q Recv.init es = some s)
    (hr : ∀ e ∈ es, e ≠ .recv ∧ ∀ i, e ≠ .handoff i) : s.got = [] := by
  refine run_induction (P := fun es s => (∀ e ∈ es, e ≠ .recv ∧ ∀ i, e ≠ .handoff i) → s.got = []) (fun _ => rfl) ?_ h hr
  intro es e s s' _ ih hs hr
  have ih := ih fun x hx => hr x (by simp [hx])
  obtain ⟨h1, h2⟩ := hr e (by simp)
  unfold Recv.step at hs
  split at hs
  · simp at hs
  cases e
  case recv => exact absurd rfl h1
  case handoff i => exact absurd rfl (h2 i)
  all_goals simp only at hs <;> repeat' (split at hs)
  all_goals first
    | (simp at hs; done)
    | (simp only [Option.some.injEq] at hs; subst hs; exact ih)

theorem sum_ofConn (l : List (Nat × Tok.Delivered)) (n : Nat) :
    ((List.range n).map fun i => (ofConn i l).length).sum ≤ l.length := by
  have key : ((List.range n).map fun i => (ofConn i l).length).sum = (l.filter fun x => decide (x.1 < n)).length := by
    induction n with
    | zero =>
      have : (l.filter fun x => decide (x.1 < 0)) = [] := List.filter_eq_nil_iff.2 (by simp)
      rw [this]; rfl
    | succ n ih =>
      rw [List.range_succ, List.map_append, List.sum_append, ih]
      simp only [List.map_cons, List.map_nil, List.sum_cons, List.sum_nil, Nat.add_zero]
      clear ih
      induction l with
      | nil => rfl
      | cons x l ih =>
        rw [ofConn_cons, List.length_append, ofConn_one]
        rcases Nat.lt_trichotomy x.1 n with h | h | h
        · simp [h, Nat.lt_succ_of_lt h, Nat.ne_of_lt h]; omega
        · simp [h]; omega
        · simp [Nat.not_lt_of_gt h, Nat.ne_of_gt h, show ¬ x.1 < n + 1 by omega]; omega
  rw [key]
  exact List.length_filter_le _ _

/-- C88: a receiver whose user does not call `Receive` reads at most 64 KiB for every message its queue can hold and
64 KiB for every connection, however much its peers send. -/
theorem C88_unread (t : Transport) (lenQueue : Nat) (es : List Recv.Event) (s : Recv.State)
    (h : Recv.run t lenQueue Recv.init es = some s) (hc : s.crashed = false) (hr : ∀ e ∈ es, e ≠ .recv ∧ ∀ i, e ≠ .handoff i) :
    ((List.range s.conns.length).map fun i => (arrived (readsOf i es)).length).sum ≤ 65536 * (lenQueue + s.conns.length) := by
  have hg := got_nil h hr
  have one : ∀ i < s.conns.length, (arrived (readsOf i es)).length ≤ 65536 * (ofConn i s.pipeline).length + 65536 := by
    intro i hi
    obtain ⟨pieces, rest, h1, h2, h3⟩ := C88_backpressure t lenQueue es s h hc i _ (List.getElem?_eq_getElem hi)
    rw [hg] at h2
    cases h2
    rw [h1]
    simpa [Nat.mul_add] using h3
  have all : ∀ n ≤ s.conns.length, ((List.range n).map fun i => (arrived (readsOf i es)).length).sum ≤
      65536 * ((List.range n).map fun i => (ofConn i s.pipeline).length).sum + 65536 * n := by
    intro n hn
    induction n with
    | zero => simp
    | succ n ih =>
      have := ih (by omega)
      have := one n (by omega)
      rw [List.range_succ, List.map_append, List.sum_append, List.map_append, List.sum_append]
      simp only [List.map_cons, List.map_nil, List.sum_cons, List.sum_nil, Nat.add_zero]
      omega
  have h1 := all _ (Nat.le_refl _)
  have h2 := sum_ofConn s.pipeline s.conns.length
  have h3 := (C88_queues t lenQueue es s h).1
  omega

/-- A history without a call of `Receive`, in which a message was read and waits. -/
example (lenQueue : Nat) : ∃ es s c, Recv.run .lfEnded lenQueue Recv.init es = some s ∧ s.crashed = false ∧
    (∀ e ∈ es, e ≠ .recv ∧ ∀ i, e ≠ .handoff i) ∧ s.conns[0]? = some c ∧ c.pending ≠ [] := by
  obtain ⟨s, d, h, h2, _, _⟩ := C41_structured_data_violated
  cases h with
  | cons hf hs hr =>
    generalize ho : (Out.ret (true, s) : Out (Bool × Tok.State)) = o at hr
    cases hr with
    | nil =>
      simp only [Out.ret.injEq, Prod.mk.injEq, true_and] at ho
      subst ho
      refine ⟨[.tau, .acceptOk, .read 0 { data := stream .lfEnded twoLines }], { Recv.init with conns := [⟨s, s.out, false, true, false⟩] }, _, ?_, rfl, ?_, rfl, by simp [h2]⟩
      · simp only [Recv.run, Recv.step, Recv.init, Conn.new, State.setConn, Bool.false_eq_true, if_false, Option.bind_some, if_true, List.nil_append,
          List.getElem?_cons_zero, List.length_nil, not_false_eq_true, true_and, hf, hs]
        rfl
      · intro e he
        simp only [List.mem_cons, List.not_mem_nil, or_false] at he
        rcases he with rfl | rfl | rfl <;> simp
  | last hf hs hn => exact absurd rfl (hn s)

open Sender in
/-- C88 is violated by the sender: nothing bounds its queue. While the destination cannot be reached, every call of `Send`
is accepted at once and without an error, though the failure has been reported. -/
theorem C88_sender_violated (t : Transport) (n : Nat) : ∃ es s, History t es s ∧ s.crashed = false ∧ s.locked = false ∧
    errors es = [.connect 0] ∧ received es = [.connect 0] ∧ (frames t es).length = n ∧ s.queue = frames t es := by
  have key : ∀ n (s : Sender.State), s.crashed = false → s.locked = false →
      Sender.run t s (List.replicate n (.send (exMsg b!"x"))) =
        some { s with queue := s.queue ++ List.replicate n (t.encode b!"<14>1 1970-01-01T00:00:00Z h a 1 - - x") } := by
    intro n
    induction n with
    | zero => intro s _ _; simp [Sender.run]
    | succ n ih =>
      intro s h1 h2
      simp only [List.replicate_succ, Sender.run, Sender.step, h1, h2, exMsg_marshal, Bool.false_eq_true, if_false, Option.bind_some]
      rw [ih _ rfl rfl]
      simp
  have fr : ∀ n, frames t (List.replicate n (.send (exMsg b!"x"))) = List.replicate n (t.encode b!"<14>1 1970-01-01T00:00:00Z h a 1 - - x") := by
    intro n
    induction n with
    | zero => rfl
    | succ n ih => simp only [List.replicate_succ, frames, exMsg_marshal]; rw [ih]
  have er : ∀ n, errors (List.replicate n (.send (exMsg b!"x"))) = [] := by
    intro n
    induction n with
    | zero => rfl
    | succ n ih => simpa [List.replicate_succ, errors] using ih
  have re : ∀ n, received (List.replicate n (.send (exMsg b!"x"))) = [] := by
    intro n
    induction n with
    | zero => rfl
    | succ n ih => simpa [List.replicate_succ, received] using ih
  refine ⟨[.tick, .tau, .connect (some 0), .tau, .recvErr (.connect 0)] ++ List.replicate n (.send (exMsg b!"x")), _, run_append rfl (key n _ rfl rfl),
    rfl, rfl, ?_, ?_, ?_, ?_⟩
  · simp [errors, er]
  · simp [received, re]
  · simp [frames, fr]
  · simp [frames, fr, Sender.init]

end Syslog5424
