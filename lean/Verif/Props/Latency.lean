import Verif.Spec.Latency
import Verif.Props.Sender
import Verif.Props.Calls
/-! # Property C112: how long a message can wait in the sender -/
namespace Syslog5424
open Spec Sender

/-- The sender is in a flush that did not fail so far. -/
def flushes : PC → Bool
  | .test _ => true
  | .connect _ => true
  | .lock _ => true
  | .loop _ => true
  | .write _ _ _ => true
  | _ => false

/-- Everything in `d` is written, or there were at most as many ticks as failures, or one more and the flush goes on. -/
def Late (d : Bytes) (n k : Nat) (s : State) : Prop :=
  d <+: wire s ∨ n ≤ k ∨ (n ≤ k + 1 ∧ flushes s.pc = true)

theorem late_step {t : Transport} {d : Bytes} {es : List Event} {n k : Nat} {s s' : State} {e : Event} (h : History t es s)
    (hd : d <+: (frames t es).flatten) (hl : Late d n k s) (hs : step t s e = some s') :
    Late d (n + (if isTick e then 1 else 0)) (k + (if fails e then 1 else 0)) s' := by
  rcases hl with hl | hl | ⟨hl, hf⟩
  · exact .inl (hl.trans (step_wire hs))
  · obtain ⟨_, htr⟩ := step_tr hs
    cases htr with
    | tick hp => exact .inr (.inr ⟨by simp [isTick, fails]; omega, rfl⟩)
    | _ => exact .inr (.inl (by simp [isTick, fails]; try omega))
  · obtain ⟨_, htr⟩ := step_tr hs
    cases htr with
    | tick hp => rw [hp] at hf; cases hf
    | seeEnd hp => rw [hp] at hf; cases hf
    | loopEnd hp hq =>
      left
      have := C34_exactly_once t es s h
      rw [hq] at this
      simp only [List.flatten_nil, List.drop_nil, List.append_nil] at this
      have hw : wire { s with pc := .unlock ‹_› } = wire s := rfl
      rw [hw, this]
      exact hd
    | errConn hp => rw [hp] at hf; cases hf
    | errWrite hp => rw [hp] at hf; cases hf
    | unlock hp => rw [hp] at hf; cases hf
    | drainMore hp => rw [hp] at hf; cases hf
    | drainEnd hp => rw [hp] at hf; cases hf
    | closeOut hp => rw [hp] at hf; cases hf
    | closeNil hp => rw [hp] at hf; cases hf
    | closeDone hp => rw [hp] at hf; cases hf
    | closeErr hp => rw [hp] at hf; cases hf
    | connErr hp => exact .inr (.inl (by simp [isTick, fails]; omega))
    | writeNobufs hp => exact .inr (.inl (by simp [isTick, fails]; omega))
    | writeErr hp => exact .inr (.inl (by simp [isTick, fails]; omega))
    | _ => exact .inr (.inr ⟨by simp [isTick, fails]; try omega, by first | rfl | exact hf⟩)

theorem ticks_cons (e : Event) (es : List Event) : ticks (e :: es) = (if isTick e then 1 else 0) + ticks es := by
  unfold ticks
  rw [List.filter_cons]
  split <;> simp [Nat.add_comm]

theorem failed_cons (e : Event) (es : List Event) : failed (e :: es) = (if fails e then 1 else 0) + failed es := by
  unfold failed
  rw [List.filter_cons]
  split <;> simp [Nat.add_comm]

theorem late_run {t : Transport} {d : Bytes} {es es' : List Event} {n k : Nat} {s s' : State} (h : History t es s)
    (hd : d <+: (frames t es).flatten) (hl : Late d n k s) (hs : run t s es' = some s') :
    Late d (n + ticks es') (k + failed es') s' := by
  induction es' generalizing es n k s with
  | nil =>
    simp only [run, Option.some.injEq] at hs
    subst hs
    simpa [ticks, failed] using hl
  | cons e r ih =>
    simp only [run] at hs
    obtain ⟨s1, h1, h2⟩ := Option.bind_eq_some_iff.mp hs
    have hh : History t (es ++ [e]) s1 := run_append h (by simp only [run, h1]; rfl)
    have hd' : d <+: (frames t (es ++ [e])).flatten := by
      refine hd.trans ?_
      rw [frames_append, List.flatten_append]
      exact List.prefix_append _ _
    have := ih hh hd' (late_step h hd hl h1) h2
    rw [ticks_cons, failed_cons]
    simpa only [Nat.add_assoc] using this

/-- **C112**: what was accepted is written once the sender received two ticks more than there were failures of `Connect` and
`Write` since: with no failure, at the second tick. -/
theorem C112_ticks (t : Transport) (before after : List Event) (s : State) (h : History t (before ++ after) s)
    (hn : failed after + 2 ≤ ticks after) : (frames t before).flatten <+: wire s := by
  obtain ⟨s1, h1, h2⟩ := run_split h
  have := late_run (n := 0) (k := 0) h1 (List.prefix_refl _) (.inr (.inl (Nat.le_refl _))) h2
  rcases this with h | h | ⟨h, _⟩
  · exact h
  · omega
  · omega

/-- **C112**: what was accepted before a tick is written when the sender receives the next tick, or notices `End`, if no `Connect`
and no `Write` failed in between. -/
theorem C112_one_flush (t : Transport) (before during after : List Event) (e : Event) (s : State)
    (h : History t (before ++ .tick :: (during ++ e :: after)) s) (he : e = .tick ∨ e = .seeEnd) (hf : ∀ x ∈ during, fails x = false) :
    (frames t before).flatten <+: wire s := by
  obtain ⟨s1, h1, h2⟩ := run_split h
  have h2' : run t s1 ((.tick :: during) ++ (e :: after)) = some s := h2
  obtain ⟨s2, h3, h4⟩ := run_split h2'
  have hz : failed (.tick :: during) = 0 := by
    unfold failed
    rw [List.length_eq_zero_iff, List.filter_eq_nil_iff]
    intro x hx
    simp only [List.mem_cons] at hx
    rcases hx with rfl | hx
    · simp [isTick, fails]
    · simp [hf x hx]
  have hl := late_run (n := 0) (k := 0) h1 (List.prefix_refl _) (.inr (.inl (Nat.le_refl _))) h3
  rw [hz, ticks_cons] at hl
  simp only [run] at h4
  obtain ⟨s3, h5, h6⟩ := Option.bind_eq_some_iff.mp h4
  have hw : wire s2 <+: wire s := (step_wire h5).trans (run_wire h6)
  rcases hl with h | h | ⟨_, hfl⟩
  · exact h.trans hw
  · simp [isTick] at h
  · obtain ⟨_, htr⟩ := step_tr h5
    exfalso
    have hp : s2.pc = .select := by rcases he with rfl | rfl <;> cases htr <;> assumption
    rw [hp] at hfl
    cases hfl

/-! ## with the time of the events -/

theorem until_split {h : List (Nat × Event)} (ht : Timed h) {x y : Nat} (hxy : x ≤ y) : until_ y h = until_ x h ++ within x y h := by
  induction h with
  | nil => rfl
  | cons z r ih =>
    obtain ⟨h1, h2⟩ := List.pairwise_cons.mp ht
    have ih := ih h2
    unfold until_ within at ih ⊢
    by_cases hz : z.1 ≤ x
    · have hzy : z.1 ≤ y := by omega
      have : ¬ x < z.1 := by omega
      simp only [List.filter_cons, hz, hzy, this, decide_true, if_true, decide_false, Bool.false_and, List.map_cons, List.cons_append]
      rw [ih]
      simp
    · have hnone : r.filter (fun w => decide (w.1 ≤ x)) = [] := by
        rw [List.filter_eq_nil_iff]
        intro w hw
        have := h1 w hw
        simp; omega
      have hlt : x < z.1 := by omega
      rw [hnone] at ih
      simp only [List.filter_cons, hz, decide_false, Bool.false_eq_true, if_false, hnone, List.map_nil, List.nil_append, hlt, decide_true, Bool.true_and]
      simp only [List.map_nil, List.nil_append] at ih
      split
      · simp only [List.map_cons]; rw [ih]
      · exact ih

theorem ticks_append (a b : List Event) : ticks (a ++ b) = ticks a + ticks b := by
  simp [ticks, List.filter_append]

theorem within_split {h : List (Nat × Event)} (ht : Timed h) {x y z : Nat} (hxy : x ≤ y) (hyz : y ≤ z) :
    within x z h = within x y h ++ within y z h := by
  have h1 := until_split ht hxy
  have h2 := until_split ht hyz
  have h3 := until_split ht (Nat.le_trans hxy hyz)
  rw [h1, h3, List.append_assoc] at h2
  exact List.append_cancel_left h2

theorem ticks_within {h : List (Nat × Event)} (ht : Timed h) {d a : Nat} (n : Nat) (hk : TicksEvery d a (a + n * d) h) :
    n ≤ ticks (within a (a + n * d) h) := by
  induction n with
  | zero => exact Nat.zero_le _
  | succ n ih =>
    have e : a + (n + 1) * d = a + n * d + d := by rw [Nat.add_mul]; omega
    rw [e] at hk ⊢
    have h1 := ih (fun x hx hx' => hk x hx (by omega))
    rw [within_split ht (y := a + n * d) (by omega) (by omega), ticks_append]
    obtain ⟨y, hy1, hy2, hy3⟩ := hk (a + n * d) (by omega) (Nat.le_refl _)
    have : 1 ≤ ticks (within (a + n * d) (a + n * d + d) h) := by
      unfold ticks within
      refine List.length_pos_iff.mpr (List.ne_nil_of_mem (a := Event.tick) ?_)
      refine List.mem_filter.mpr ⟨List.mem_map.mpr ⟨(y, .tick), List.mem_filter.mpr ⟨hy3, ?_⟩, rfl⟩, rfl⟩
      simp [hy1, hy2]
    omega

/-- **C112**: if the sender receives a tick at least every `d`, a message that `Send` accepted is written after at most `2 * d`,
and `d` more for every call of `Connect` or `Write` that failed meanwhile. -/
theorem C112_time (t : Transport) (d x k : Nat) (h : List (Nat × Event)) (ht : Timed h) (hd : TicksEvery d x (x + (k + 2) * d) h)
    (hk : failed (within x (x + (k + 2) * d) h) ≤ k) (s : State) (hs : History t (until_ (x + (k + 2) * d) h) s) :
    (frames t (until_ x h)).flatten <+: wire s := by
  rw [until_split ht (x := x) (by omega)] at hs
  refine C112_ticks t _ _ s hs ?_
  have := ticks_within ht (k + 2) hd
  omega

/-! ## with calls of several goroutines -/

theorem rest_append (l l' : List (Option Nat × Event)) : rest (l ++ l') = rest l ++ rest l' := by simp [rest, List.filter_append]

theorem counts_rest {l : List (Option Nat × Event)} (p : Event → Bool) (hl : ∀ x ∈ l, x.1 ≠ none → p x.2 = false) :
    ((l.map (·.2)).filter p).length = ((rest l).filter p).length := by
  induction l with
  | nil => rfl
  | cons x r ih =>
    have ih := ih (fun y hy => hl y (List.mem_cons_of_mem _ hy))
    have hx := hl x (List.mem_cons_self ..)
    unfold rest at ih ⊢
    simp only [List.map_cons, List.filter_cons]
    by_cases hn : x.1 = none
    · simp only [hn, decide_true, if_true, List.map_cons, List.filter_cons]
      split
      · simp [ih]
      · exact ih
    · simp only [hx hn, Bool.false_eq_true, if_false, hn, decide_false]
      exact ih

/-- **C112**: the same for the calls of several goroutines: the messages whose `Send` has returned are written once the sender
received two ticks more than there were failures since. -/
theorem C112_calls (t : Transport) (h h' : List FEvent) (f f' : FState) (h1 : FHistory t h f) (h2 : frun t f h' = some f')
    (hn : failed (others h') + 2 ≤ ticks (others h')) :
    ∃ a, Accepted h a ∧ (a.map fun x => frameOf t x.2).flatten <+: wire f'.s := by
  obtain ⟨l, l', e1, e2⟩ := C92_linearizable t h h' f f' h1 h2
  have ho : rest l' = others h' := by
    have := e2.others
    rw [rest_append, e1.others, others_append] at this
    exact List.append_cancel_left this
  have hown : ∀ x ∈ l', x.1 ≠ none → isTick x.2 = false ∧ fails x.2 = false := by
    intro x hx hx1
    obtain ⟨g, hg⟩ := Option.ne_none_iff_exists'.mp hx1
    have : x.2 ∈ own g (l ++ l') := List.mem_map.mpr ⟨x, List.mem_filter.mpr ⟨List.mem_append_right _ hx, by simp [hg]⟩, rfl⟩
    have := (e2.order g).subset this
    obtain ⟨o, _, ho⟩ := List.mem_map.mp this
    rw [← ho]
    cases o <;> exact ⟨rfl, rfl⟩
  have hs := e2.state
  rw [List.map_append] at hs
  have := C112_ticks t _ _ _ hs (by
    have a1 := counts_rest isTick (fun x hx hx1 => (hown x hx hx1).1)
    have a2 := counts_rest fails (fun x hx hx1 => (hown x hx hx1).2)
    unfold failed ticks at hn ⊢
    rw [a1, a2, ho]
    exact hn)
  refine ⟨sendsOf l, e1.accepted, ?_⟩
  have e : (frames t (l.map (·.2))).flatten = ((sendsOf l).map fun x => frameOf t x.2).flatten := by
    rw [← frames_sendsOf t l (by rw [e1.others]; exact no_other_send h1)]
  rw [← e]
  exact this

/-! ## the hypotheses are met -/

/-- A message is sent at the time 0; the first `Write` fails after 10 bytes; the ticks come every 500. -/
def lateHistory : List (Nat × Event) :=
  [(0, .send (exMsg b!"x")), (500, .tick), (500, .tau), (501, .connect none), (501, .tau), (501, .tau), (502, .write 10 (some (.other 0))), (502, .tau),
   (502, .tau), (600, .send (exMsg b!"y")), (1000, .tick), (1000, .tau), (1001, .connect none), (1001, .tau), (1001, .tau), (1001, .write 29 none), (1002, .write 39 none), (1002, .tau),
   (1002, .tau), (1002, .tau), (1500, .tick)]

example : Timed lateHistory ∧ TicksEvery 500 0 (0 + (1 + 2) * 500) lateHistory ∧ failed (within 0 (0 + (1 + 2) * 500) lateHistory) ≤ 1 ∧
    (∃ s, History .lfEnded (until_ (0 + (1 + 2) * 500) lateHistory) s ∧ wire s = b!"<14>1 1970-01-01T00:00:00Z h a 1 - - x\n<14>1 1970-01-01T00:00:00Z h a 1 - - y\n") ∧
    frames .lfEnded (until_ 0 lateHistory) = [b!"<14>1 1970-01-01T00:00:00Z h a 1 - - x\n"] := by
  refine ⟨by unfold Timed; decide +kernel, ?_, by decide +kernel, ⟨⟨[], [⟨[b!"<14>1 1970"], false⟩, ⟨[b!"-01-01T00:00:00Z h a 1 - - x\n", b!"<14>1 1970-01-01T00:00:00Z h a 1 - - y\n"], false⟩],
    true, false, [.write 0], false, false, false, false, .test false⟩, by decide +kernel, by decide +kernel⟩, by decide +kernel⟩
  intro x _ hx
  rcases Nat.lt_or_ge x 500 with h | h
  · exact ⟨500, h, by omega, by simp [lateHistory]⟩
  rcases Nat.lt_or_ge x 1000 with h' | h'
  · exact ⟨1000, h', by omega, by simp [lateHistory]⟩
  · exact ⟨1500, by omega, by omega, by simp [lateHistory]⟩

/-- One failure more and nothing is promised: at the third tick nothing is written. -/
example : ∃ s, History .lfEnded [.send (exMsg b!"x"), .tick, .tau, .connect (some 0), .tau, .recvErr (.connect 0), .tick, .tau, .connect (some 0), .tau, .tick] s ∧
    wire s = [] := ⟨⟨[b!"<14>1 1970-01-01T00:00:00Z h a 1 - - x\n"], [], false, false, [.connect 0], false, false, false, false, .test false⟩, by decide +kernel, rfl⟩

/-- Two goroutines; the flush begins while one of them is inside `Send`. -/
def lateCalls : List FEvent := [.call 1 (.send (exMsg b!"x")), .tau 1, .call 2 (.send (exMsg b!"y")), .tau 2, .tau 2, .tau 2, .tau 2, .ret 2]

def lateCalls' : List FEvent := [.other .tick, .tau 1, .tau 1, .tau 1] ++
  [Event.tau, .connect none, .tau, .tau, .write 39 none, .write 39 none, .tau, .tau, .tau, .tick].map .other

example : ∃ f f', FHistory .lfEnded lateCalls f ∧ frun .lfEnded f lateCalls' = some f' ∧ failed (others lateCalls') + 2 ≤ ticks (others lateCalls') ∧
    wire f'.s = b!"<14>1 1970-01-01T00:00:00Z h a 1 - - y\n<14>1 1970-01-01T00:00:00Z h a 1 - - x\n" := by
  have h : (match frun .lfEnded finit lateCalls with
    | some f => match frun .lfEnded f lateCalls' with
      | some f' => decide (wire f'.s = b!"<14>1 1970-01-01T00:00:00Z h a 1 - - y\n<14>1 1970-01-01T00:00:00Z h a 1 - - x\n")
      | none => false
    | none => false) = true := by decide +kernel
  split at h
  · next f hf =>
    split at h
    · next f' hf' => exact ⟨f, f', hf, hf', by decide +kernel, by simpa using h⟩
    · cases h
  · cases h

end Syslog5424
