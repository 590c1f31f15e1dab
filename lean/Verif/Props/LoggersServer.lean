import Verif.Props.LoggersEventually
import Verif.Props.Server
/-! # C118: programs with several loggers and one log server -/
namespace Syslog5424
open Spec Sender Recv

theorem loggers_travel {t : Transport} {P : LoggersProgram} (w : P.Logs t) {n g : Nat} {m : Message} (hm : P.ev n = some (.call g (.send m))) :
    TravelsOver t m := by
  obtain ⟨cl, h1, h2⟩ := lineOn_of_call w.made w.begins hm
  exact saysOn_travels h2 (w.travels g (n + 1) cl h1) (fun e => w.size e n g m hm)

/-- **C118**, a log server: any number of programs, each with several loggers on its sender and several goroutines that log on them, send to one receiver; some
go on for ever, some call `End` and exit. The calls of `Receive` (of several goroutines) return, of a program that goes on, all the lines that its goroutines have
begun before the moment `n p`; of a program that exits, all the lines, when its goroutines had returned from them before it called `End`; each line once, with what
belongs to its logger, the lines of one goroutine in its order. -/
theorem C118_server_partial (t : Transport) (count : Nat) (P : Nat → LoggersProgram) (hlogs : ∀ p, p < count → (P p).Logs t) (n : Nat → Nat)
    (h : ∀ p, p < count → RunsOrExits t (P p).ev (P p).st (n p))
    (hq : ∀ p, p < count → EndlessSender t (P p).ev (P p).st ∨ NoSendUnderWay (P p).ev (n p))
    (lenQueue : Nat) (er : Nat → Option REvent) (sr : Nat → RState) (hxr : RExec t lenQueue er sr)
    (hc : ∀ n, (sr n).s.crashed = false) (g0 : Nat) (hworker : Worker t lenQueue g0 er sr) (hret : ∀ g, Returns t lenQueue g er sr)
    (herr : ErrorsDrained fun n => (sr n).s) (f : Nat → Nat → Nat)
    (hlinks : ServerLinks t lenQueue count (fun p n => ((P p).st n).s) f (fun n => (er n).bind atOnce) fun n => (sr n).s) :
    ∃ m d, (∀ g, ofGoroutine g d <+: messages (returnedTo g (sr m))) ∧
      ∀ p, p < count → ∃ k a, BeforeOn (P p).loggers (P p).lines (n p) a ∧
        Each (fun c d => SaysOn ((P p).loggers c.1) c.2 d) (a.map (·.2)) ((receivedOver (f p) k (d.map (·.2))).take a.length) := by
  obtain ⟨m, d, h1, h2⟩ := C115_delivered_partial t count (fun p => (P p).ev) (fun p => (P p).st) n h (fun p hp _ _ _ hm => loggers_travel (hlogs p hp) hm)
    lenQueue er sr hxr hc g0 hworker hret herr f hlinks
  refine ⟨m, d, h1, fun p hp => ?_⟩
  obtain ⟨k, a, h3, h4, h5⟩ := h2 p hp
  have hg : GivenBefore (P p).ev (n p) a := by
    rcases hq p hp with he | he
    · exact h4 he
    · exact given_of_returned h3 he
  obtain ⟨n', ha⟩ := hg
  have w := hlogs p hp
  obtain ⟨b, g1, g2⟩ := linesOn_said w.made w.begins ha
  refine ⟨k, b, g1, ?_⟩
  have hlen : b.length = a.length := by have := each_length g2; simpa using this.symm
  rw [hlen]
  exact each_trans g2 h5 (fun _ _ _ _ u v => saysOn_received u v)

/-- **C118**, the origin of every message at the server: if all its connections come from these programs, what a call of `Receive` returns says a line that a
goroutine of the program on whose connection it arrived has written on a logger of this program: facility, host, process identifier and application name are those of
this logger. -/
theorem C118_origin_partial (t : Transport) (count : Nat) (P : Nat → LoggersProgram) (hlogs : ∀ p, p < count → (P p).Logs t)
    (h : ∀ p, p < count → FExec t (P p).ev (P p).st)
    (hwhole : ∀ p, p < count → ∀ n nb x, (P p).ev n = some (.other (.write nb (some x))) → nb = 0)
    (lenQueue : Nat) (er : Nat → Option REvent) (sr : Nat → RState) (hxr : RExec t lenQueue er sr) (hc : ∀ n, (sr n).s.crashed = false)
    (f : Nat → Nat → Nat) (hlinks : ServerLinks t lenQueue count (fun p n => ((P p).st n).s) f (fun n => (er n).bind atOnce) fun n => (sr n).s)
    (hall : ∀ n i, i < (sr n).s.conns.length → ∃ p j, p < count ∧ Opened (fun n => ((P p).st n).s) j ∧ f p j = i)
    (M g : Nat) (x : Nat × Tok.Delivered) (hx : x ∈ messages (returnedTo g (sr M))) :
    ∃ p j g' i c, p < count ∧ f p j = x.1 ∧ c ∈ passingOn (P p).loggers ((P p).lines g' i) ∧ SaysOn ((P p).loggers c.1) c.2 x.2 := by
  obtain ⟨p, j, g', i, m, hp, hf, hm, hr⟩ := C115_origin_partial t count (fun p => (P p).ev) (fun p => (P p).st) h hwhole
    (fun p hp _ _ _ hm => loggers_travel (hlogs p hp) hm) lenQueue er sr hxr hc f hlinks hall M g x hx
  have w := hlogs p hp
  have hgiven : m ∈ givenBy g' (past (P p).ev (i + 1)) := by
    rw [past_succ, hm]
    unfold givenBy
    rw [called_append]
    simp [messagesOf, called]
  obtain ⟨cl, g1, g2⟩ := each_mem (beginOn_each w.made w.begins g' (i + 1)) m hgiven
  exact ⟨p, j, g', i + 1, cl, hp, hf, g1, saysOn_received g2 hr⟩

/-! The hypotheses are met: one program goes on for ever, the other one exits; each has two loggers, one made by `SubSyslog`. -/

def serverLoggers (p : Nat) : LoggersProgram :=
  ⟨twoLoggers, twoObjects, 3, twoProgsOn, if p = 0 then flassoEv twoForever 38 5 else fun n => twoExit[n]?, serverStates p⟩

theorem serverLoggers_logs (p : Nat) : (serverLoggers p).Logs .lfEnded where
  made := twoLoggers_made
  begins := by
    show BeginOn twoObjects 3 twoProgsOn (if p = 0 then _ else _)
    split
    · exact twoProgsOn_begin
    · refine ⟨twoProgsOn_begin.1, fun g n => ?_⟩
      rw [twoExit_given, ← twoForever_given]
      exact twoProgsOn_begin.2 g n
  travels := twoProgsOn_travels
  size := nofun

example : ∃ m d, (∀ g, ofGoroutine g d <+: messages (returnedTo g (rfinSt .lfEnded 0 serverPool m))) ∧
    ∀ p, p < 2 → ∃ k a, BeforeOn twoLoggers twoProgsOn 12 a ∧
      Each (fun c d => SaysOn (twoLoggers c.1) c.2 d) (a.map (·.2)) ((receivedOver (fun j => 2 * p + j) k (d.map (·.2))).take a.length) := by
  obtain ⟨f, hf, hat⟩ := serverPool_run
  obtain ⟨r1, r2, r3, r4, r5, r6⟩ := serverPool_fair hf hat
  obtain ⟨P0, w0, a1, a2, _⟩ := demo_works
  have he : EndlessSender .lfEnded (flassoEv twoForever 38 5) (flassoSt .lfEnded twoForever 38 5) := by
    rw [← a1, ← a2]; exact w0.endless
  exact C118_server_partial .lfEnded 2 serverLoggers (fun p _ => serverLoggers_logs p) (fun _ => 12) (by
      intro p hp
      match p with
      | 0 => exact .inl he
      | 1 => exact .inr ⟨29, twoExit_ends⟩) (by
      intro p hp
      match p with
      | 0 => exact .inl he
      | 1 => exact .inr twoExit_quiet)
    0 (fun n => serverPool[n]?) (rfinSt .lfEnded 0 serverPool) r1 r2 0 r3 r4 r5 (fun p j => 2 * p + j) (serverPool_links hf hat r6)

theorem conns_only_more {t : Transport} {q : Nat} {s s' : Recv.State} {e : Recv.Event} (h : Recv.step t q s e = some s') :
    s.conns.length ≤ s'.conns.length := by
  unfold Recv.step at h
  repeat' split at h
  all_goals first
    | (simp only [Option.some.injEq] at h; subst h; simp [Recv.State.setConn])
    | cases h

theorem rconns_only_more {t : Transport} {q : Nat} {f f' : RState} {e : REvent} (h : rstep t q f e = some f') :
    f.s.conns.length ≤ f'.s.conns.length := by
  unfold rstep at h
  repeat' split at h
  all_goals first
    | (simp only [Option.map_eq_some_iff] at h; obtain ⟨s, hs, rfl⟩ := h; exact conns_only_more hs)
    | (simp only [Option.some.injEq] at h; subst h; exact Nat.le_refl _)
    | cases h

theorem rrun_only_more {t : Transport} {q : Nat} (es : List REvent) : ∀ {f f' : RState}, rrun t q f es = some f' →
    f.s.conns.length ≤ f'.s.conns.length := by
  induction es with
  | nil => intro f f' h; cases h; exact Nat.le_refl _
  | cons e r ih =>
    intro f f' h
    simp only [rrun, Option.bind_eq_some_iff] at h
    obtain ⟨g, h1, h2⟩ := h
    exact Nat.le_trans (rconns_only_more h1) (ih h2)

/-- All the hypotheses of `C118_origin_partial` (and with it of `C115_origin_partial`) are met. -/
example (M g : Nat) (x : Nat × Tok.Delivered) (hx : x ∈ messages (returnedTo g (rfinSt .lfEnded 0 serverPool M))) :
    ∃ p j g' i c, p < 2 ∧ 2 * p + j = x.1 ∧ c ∈ passingOn twoLoggers (twoProgsOn g' i) ∧ SaysOn (twoLoggers c.1) c.2 x.2 := by
  obtain ⟨f, hf, hat⟩ := serverPool_run
  obtain ⟨r1, r2, r3, r4, r5, r6⟩ := serverPool_fair hf hat
  obtain ⟨P0, w0, a1, a2, _⟩ := demo_works
  have he : EndlessSender .lfEnded (flassoEv twoForever 38 5) (flassoSt .lfEnded twoForever 38 5) := by
    rw [← a1, ← a2]; exact w0.endless
  refine C118_origin_partial .lfEnded 2 serverLoggers (fun p _ => serverLoggers_logs p) (by
      intro p hp
      match p with
      | 0 => exact he.exec
      | 1 => exact twoExit_ends.exec) (by
      intro p hp
      match p with
      | 0 => exact he.whole
      | 1 => exact twoExit_ends.whole)
    0 (fun n => serverPool[n]?) (rfinSt .lfEnded 0 serverPool) r1 r2 (fun p j => 2 * p + j) (serverPool_links hf hat r6) ?_ M g x hx
  intro n i hi
  have hlen : (rfinSt .lfEnded 0 serverPool n).s.conns.length ≤ 3 := by
    have h := hf
    rw [← List.take_append_drop n serverPool, rrun_append] at h
    simp only [Option.bind_eq_some_iff] at h
    obtain ⟨f1, h1, h2⟩ := h
    rw [rfinSt, h1, Option.getD_some, ← hat.three]
    exact rrun_only_more _ h2
  have o0 : ∀ j, j < 2 → Opened (fun n => (flassoSt .lfEnded twoForever 38 5 n).s) j := by
    intro j hj
    refine ⟨38, ?_⟩
    unfold flassoSt
    rw [(twoForever_conns _ (lasso_succ 38 5 38 (by omega)).1).1]
    have : lasso 38 5 38 = 38 := by decide
    simp only [this]; rw [if_neg (by omega), if_neg (by omega)]; exact hj
  have o1 : Opened (fun n => (fafter .lfEnded twoExit n).s) 0 := ⟨30, by rw [(twoExit_conns 30 (by omega)).1]; decide⟩
  match i, Nat.lt_of_lt_of_le hi hlen with
  | 0, _ => exact ⟨0, 0, by omega, o0 0 (by omega), rfl⟩
  | 1, _ => exact ⟨0, 1, by omega, o0 1 (by omega), rfl⟩
  | 2, _ => exact ⟨1, 0, by omega, o1, rfl⟩

end Syslog5424
