import Verif.Props.LoggersServer
/-! # C118: programs with several loggers and a datagram socket; C114: programs that go on and programs that exit, on one datagram socket -/
namespace Syslog5424
open Spec Sender Recv

/-- **C114** (partial), datagram sockets: any number of programs send to one socket, each from several goroutines; each goes on for ever or calls `End` at its own
moment, waits for its return, and exits. Everything whose `Send` had returned before the moment `n j` (when the program goes on: everything given to `Send`
before it) is returned by calls of `Receive`, eventually, each message exactly once, the messages of one goroutine in its order. Missing: longer messages
(`C74_stall_violated`). -/
theorem C114_gram_mixed_partial (t : Transport) (count : Nat) (ev : Nat → Nat → Option FEvent) (st : Nat → Nat → FState) (n : Nat → Nat)
    (h : ∀ j, j < count → RunsOrExits t (ev j) (st j) (n j))
    (hmsgs : ∀ j, j < count → ∀ n g m, ev j n = some (.call g (.send m)) → FitsDatagram t m)
    (lenQueue : Nat) (er : Nat → Option REvent) (sr : Nat → RState) (hxr : RExec t lenQueue er sr)
    (hc : ∀ n, (sr n).s.crashed = false) (g0 : Nat) (hworker : Worker t lenQueue g0 er sr) (hret : ∀ g, Returns t lenQueue g er sr)
    (herr : ErrorsDrained fun n => (sr n).s) (i : Nat) (hserve : Served t lenQueue i (fun n => (er n).bind atOnce) (fun n => (sr n).s))
    (hi : ∃ n, i < (sr n).s.conns.length) (ds : Nat → List (Nat × Bytes)) (answers : Nat → List Net.Recv)
    (hlink : GramLink t count (fun j n => (st j n).s) i (fun n => (er n).bind atOnce) ds answers) :
    ∃ m d, ∃ ts : List (Nat × Nat × Message), (∀ x ∈ ts, x.1 < count) ∧
      (∀ j, j < count → ReturnedBefore (ev j) (n j) (fromSender j ts) ∧ (EndlessSender t (ev j) (st j) → GivenBefore (ev j) (n j) (fromSender j ts))) ∧
      Each IsReceived (ts.map (·.2.2)) ((ofConn i (d.map (·.2))).take ts.length) ∧ ∀ g, ofGoroutine g d <+: messages (returnedTo g (sr m)) := by
  have hok : ∀ j, j < count → ∀ n g m, ev j n = some (.call g (.send m)) → ∃ b, m.marshal = .ret (.ok b) := fun j hj n g m hm => by
    obtain ⟨b, _, hb, _⟩ := transmissible_frame (hmsgs j hj n g m hm).toIntact
    exact ⟨b, hb⟩
  have hexec : ∀ j, j < count → FExec t (ev j) (st j) := fun j hj => by
    rcases h j hj with he | ⟨k, he⟩
    · exact he.exec
    · exact he.exec
  have hwhole : ∀ j, j < count → ∀ n nb x, ev j n = some (.other (.write nb (some x))) → nb = 0 := fun j hj => by
    rcases h j hj with he | ⟨k, he⟩
    · exact he.whole
    · exact he.whole
  -- a moment at which program `j` has taken what matters, which has been written later
  have hN : ∀ j, ∃ N, j < count → (∀ g, returnedBy g (past (ev j) (n j)) <+: ofGoroutine g (sendsOf (lin (ev j) (st j) N))) ∧
      (EndlessSender t (ev j) (st j) → ∀ g, givenBy g (past (ev j) (n j)) <+: ofGoroutine g (sendsOf (lin (ev j) (st j) N))) ∧
      ∃ m, frames t (past (onceEv (ev j) (st j)) N) <+: packets (st j m).s := by
    intro j
    by_cases hj : j < count
    · by_cases he : EndlessSender t (ev j) (st j)
      · obtain ⟨N, h1, _⟩ := all_taken he.exec he.lives he.runner he.goroutines he.errors (hok j hj) he.noEnd (n j)
        refine ⟨N, fun _ => ⟨fun g => ((List.take_prefix _ _).filterMap _).trans (h1 g).1, fun _ g => (h1 g).1, packets_eventually t _ _ (once_exec he.exec)
          (once_running he.exec he.lives he.runner he.goroutines) he.errors (once_recovers he.recovers)
          (once_no_end he.exec he.lives he.noEnd) he.lives (once_clean he.whole) N⟩⟩
      · obtain ⟨k, hk⟩ := (h j hj).resolve_left he
        obtain ⟨N, h1, h2, hwr⟩ := end_written hk
        refine ⟨N, fun _ => ⟨fun g => end_taken hk (hok j hj) h1 g, fun e => absurd e he, k, ?_⟩⟩
        have hx := once_exec hk.exec
        obtain ⟨waiting, hwt⟩ := C37_datagram_partial t _ _ (Sender.history_past hx k) (by
          intro nb x hmem
          simp only [past, List.mem_filterMap, List.mem_range] at hmem
          obtain ⟨i, _, hi⟩ := hmem
          exact once_clean hk.whole i nb x hi)
        have hp : frames t (past (onceEv (ev j) (st j)) N) <+: frames t (past (onceEv (ev j) (st j)) k) := by
          obtain ⟨r, hr⟩ := past_prefix (onceEv (ev j) (st j)) (Nat.le_of_lt h2)
          rw [← hr, Sender.frames_append]
          exact ⟨_, rfl⟩
        rw [wire_packets] at hwr
        exact flatten_prefix_imp (frames_ne_nil t _) hp ⟨waiting, hwt⟩ hwr
    · exact ⟨0, fun h => absurd h hj⟩
  obtain ⟨N, hN⟩ : ∃ N : Nat → Nat, ∀ j, j < count → (∀ g, returnedBy g (past (ev j) (n j)) <+: ofGoroutine g (sendsOf (lin (ev j) (st j) (N j)))) ∧
      (EndlessSender t (ev j) (st j) → ∀ g, givenBy g (past (ev j) (n j)) <+: ofGoroutine g (sendsOf (lin (ev j) (st j) (N j)))) ∧
      ∃ m, frames t (past (onceEv (ev j) (st j)) (N j)) <+: packets (st j m).s :=
    ⟨fun j => (hN j).choose, fun j => (hN j).choose_spec⟩
  obtain ⟨m, d, ts, h1, h2, h3, h4⟩ := gram_many t count ev st hexec hwhole hmsgs lenQueue er sr hxr hc g0 hworker hret herr i
    hserve hi ds answers hlink N (fun j hj => (hN j hj).2.2)
  refine ⟨m, d, ts, h1, fun j hj => ?_, h3, h4⟩
  obtain ⟨k1, n', k2⟩ := h2 j hj
  have up : ∀ g, ofGoroutine g (fromSender j ts) <+: givenBy g (past (ev j) n') :=
    fun g => (ofGoroutine_prefix g k2).trans ((taken (hexec j hj) (hok j hj) n').1 g)
  exact ⟨⟨n', fun g => ⟨((hN j hj).1 g).trans (ofGoroutine_prefix g k1), up g⟩⟩,
    fun e => ⟨n', fun g => ⟨((hN j hj).2.1 e g).trans (ofGoroutine_prefix g k1), up g⟩⟩⟩

/-- What such a program gives to `Send` fits in a datagram. -/
theorem loggers_fit {t : Transport} {P : LoggersProgram} (w : P.LogsGram t) {n g : Nat} {m : Message} (hm : P.ev n = some (.call g (.send m))) :
    FitsDatagram t m := by
  obtain ⟨cl, g1, g2⟩ := lineOn_of_call w.made w.begins hm
  have hf := w.fits g (n + 1) cl g1
  have ht : TravelsOn .rfc5425 (P.loggers cl.1) cl.2 := ⟨hf.pid, ⟨fun _ => hf.line, fun _ hz => hz.elim⟩, hf.name⟩
  exact ⟨⟨saysOn_good g2 ht, by rw [g2.timestamp]; exact hf.line.time, by rw [g2.sd]; exact hf.line.sd,
    fun hne => hf.line.text (by rw [← g2.sd]; exact hne) _ g2.message⟩, w.size n g m hm, fun z hz => hf.ended z hz _ g2.message⟩

/-- From the messages of the programs to their lines. -/
theorem gram_lines_on {t : Transport} {count : Nat} {P : Nat → LoggersProgram} (h : ∀ j, j < count → (P j).LogsGram t) {n : Nat → Nat}
    {us : List (Nat × Nat × Message)} (h1 : ∀ x ∈ us, x.1 < count) (h2 : ∀ j, j < count → GivenBefore (P j).ev (n j) (fromSender j us))
    {ds : List Tok.Delivered} (h3 : Each IsReceived (us.map (·.2.2)) ds) :
    ∃ ts : List (Nat × Nat × (Nat × LogCall)), ts.length = us.length ∧ (∀ x ∈ ts, x.1 < count) ∧
      (∀ j, j < count → BeforeOn (P j).loggers (P j).lines (n j) (fromSender j ts)) ∧
      Each (fun x del => SaysOn ((P x.1).loggers x.2.2.1) x.2.2.2 del) ts ds := by
  have said : ∀ j, ∃ b : List (Nat × (Nat × LogCall)), b.length = (fromSender j us).length ∧ (j < count → BeforeOn (P j).loggers (P j).lines (n j) b) ∧
      Each (fun (x : Nat × (Nat × LogCall)) (y : Nat × Message) => SaysOnMessage ((P j).loggers x.2.1) x.2.2 y.2) b (fromSender j us) := by
    intro j
    by_cases hj : j < count
    · obtain ⟨n', ha⟩ := h2 j hj
      obtain ⟨b, k1, k2⟩ := linesOn_said (h j hj).made (h j hj).begins ha
      have hl : b.length = (fromSender j us).length := by have := each_length k2; simpa using this.symm
      refine ⟨b, hl, fun _ => k1, ?_⟩
      have hz := each_maps (R := fun (x : Nat × (Nat × LogCall)) (y : Nat × Message) => SaysOnMessage ((P j).loggers x.2.1) x.2.2 y.2) Prod.fst Prod.snd
        (b.zip (fromSender j us)) (fun x hx => by
          refine each_zip k2 (x.1.2, x.2.2) ?_
          rw [List.zip_map]
          exact List.mem_map.mpr ⟨x, hx, rfl⟩)
      rw [List.map_fst_zip (by omega), List.map_snd_zip (by omega)] at hz
      exact hz
    · rw [fromSender_none h1 hj]
      exact ⟨[], rfl, fun h => absurd h hj, .nil⟩
  obtain ⟨B, hB⟩ : ∃ B : Nat → List (Nat × (Nat × LogCall)), ∀ j, (B j).length = (fromSender j us).length ∧ (j < count → BeforeOn (P j).loggers (P j).lines (n j) (B j)) ∧
      Each (fun (x : Nat × (Nat × LogCall)) (y : Nat × Message) => SaysOnMessage ((P j).loggers x.2.1) x.2.2 y.2) (B j) (fromSender j us) :=
    ⟨fun j => (said j).choose, fun j => (said j).choose_spec⟩
  obtain ⟨vs, m1, m2, m3⟩ := merge (fun x : (Nat × (Nat × LogCall)) × (Nat × Message) => x.2) us (fun j => (B j).zip (fromSender j us)) (fun j => by
    rw [List.map_snd_zip (by rw [(hB j).1]; omega)])
  have hl : vs.length = us.length := by have := congrArg List.length m1; simpa using this
  refine ⟨vs.map fun x => (x.1, x.2.1), by simpa using hl, ?_, fun j hj => ?_, ?_⟩
  · intro x hx
    obtain ⟨v, hv, rfl⟩ := List.mem_map.mp hx
    have : v.1 ∈ us.map (·.1) := by rw [← m1]; exact List.mem_map.mpr ⟨v, hv, rfl⟩
    obtain ⟨y, hy, he⟩ := List.mem_map.mp this
    show v.1 < count
    rw [← he]; exact h1 y hy
  · rw [fromSender_map, m3, List.map_fst_zip (by rw [(hB j).1]; omega)]
    exact (hB j).2.1 hj
  · have e : us.map (·.2.2) = vs.map (·.2.2.2) := by
      have := congrArg (List.map Prod.snd) m2
      simpa [Function.comp_def] using this.symm
    rw [e] at h3
    refine each_trans (each_maps (R := fun x y => SaysOnMessage ((P x.1).loggers x.2.2.1) x.2.2.2 y)
      (fun x : Nat × (Nat × (Nat × LogCall)) × Nat × Message => (x.1, x.2.1)) (fun x => x.2.2.2) vs ?_) h3 (fun _ _ _ _ u v => saysOn_received u v)
    intro v hv
    have := m3 v.1
    have hm : v.2 ∈ fromSender v.1 vs := fromSender_mem.mpr hv
    rw [this] at hm
    exact each_zip (hB v.1).2.2 _ hm

/-- **C118**, datagram sockets: any number of programs, each with several loggers, several goroutines and one sender, send to one socket; each goes on for ever, or
calls `End` when its goroutines have returned from their lines, and exits. All the lines (that pass the threshold of their logger) are returned by calls of `Receive`,
eventually, each exactly once, with what belongs to its logger, the lines of one goroutine in its order. -/
theorem C118_gram_partial (t : Transport) (count : Nat) (P : Nat → LoggersProgram) (hlogs : ∀ j, j < count → (P j).LogsGram t) (n : Nat → Nat)
    (h : ∀ j, j < count → RunsOrExits t (P j).ev (P j).st (n j))
    (hq : ∀ j, j < count → EndlessSender t (P j).ev (P j).st ∨ NoSendUnderWay (P j).ev (n j))
    (lenQueue : Nat) (er : Nat → Option REvent) (sr : Nat → RState) (hxr : RExec t lenQueue er sr)
    (hc : ∀ n, (sr n).s.crashed = false) (g0 : Nat) (hworker : Worker t lenQueue g0 er sr) (hret : ∀ g, Returns t lenQueue g er sr)
    (herr : ErrorsDrained fun n => (sr n).s) (i : Nat) (hserve : Served t lenQueue i (fun n => (er n).bind atOnce) (fun n => (sr n).s))
    (hi : ∃ n, i < (sr n).s.conns.length) (ds : Nat → List (Nat × Bytes)) (answers : Nat → List Net.Recv)
    (hlink : GramLink t count (fun j n => ((P j).st n).s) i (fun n => (er n).bind atOnce) ds answers) :
    ∃ m d, ∃ ts : List (Nat × Nat × (Nat × LogCall)), (∀ x ∈ ts, x.1 < count) ∧
      (∀ j, j < count → BeforeOn (P j).loggers (P j).lines (n j) (fromSender j ts)) ∧
      Each (fun x del => SaysOn ((P x.1).loggers x.2.2.1) x.2.2.2 del) ts ((ofConn i (d.map (·.2))).take ts.length) ∧
      ∀ g, ofGoroutine g d <+: messages (returnedTo g (sr m)) := by
  obtain ⟨m, d, us, h1, h2, h3, h4⟩ := C114_gram_mixed_partial t count (fun j => (P j).ev) (fun j => (P j).st) n h
    (fun j hj _ _ _ hm => loggers_fit (hlogs j hj) hm) lenQueue er sr hxr hc g0 hworker hret herr i hserve hi ds answers hlink
  obtain ⟨ts, hl, k1, k2, k3⟩ := gram_lines_on hlogs h1 (n := n) (fun j hj => by
    rcases hq j hj with he | he
    · exact (h2 j hj).2 he
    · exact given_of_returned (h2 j hj).1 he) h3
  exact ⟨m, d, ts, k1, k2, by rw [hl]; exact k3, h4⟩

/-! The hypotheses are met: one program goes on for ever, the other one exits; each has two loggers, one made by `SubSyslog`. -/

/-- What is linked to the same socket. -/
theorem gramLink_mixed {t : Transport} {st : Nat → Nat → Sender.State} {i : Nat} {er : Nat → Option Recv.Event} {ds : Nat → List (Nat × Bytes)}
    {answers : Nat → List Net.Recv} {count : Nat} (h0 : 0 < count) (h : ∀ j, j < count → GramLink t count (fun _ n => st j n) i er ds answers) :
    GramLink t count st i er ds answers where
  answered := (h 0 h0).answered
  loop := (h 0 h0).loop
  senders := (h 0 h0).senders
  grows := (h 0 h0).grows
  faithful := fun m j hj => (h j hj).faithful m j hj
  live := fun j n hj => (h j hj).live j n hj

theorem twoProgsOn_fits : ∀ g n, ∀ c ∈ twoProgsOn g n, FitsOn .lfEnded (twoLoggers c.1) c.2 := by
  intro g n c hc
  have h := twoProgsOn_travels g n c hc
  have hl := h.line.2 10 rfl
  refine ⟨h.pid, ⟨hl.time, ⟨[], by rw [hl.sd]; exact ⟨rfl, by simp⟩⟩, fun hne => absurd hl.sd hne⟩, ?_, h.name⟩
  intro z hz x hx
  cases hz
  exact hl.text x hx

theorem serverLoggers_gram (p : Nat) : (serverLoggers p).LogsGram .lfEnded where
  made := twoLoggers_made
  begins := (serverLoggers_logs p).begins
  fits := twoProgsOn_fits
  size := by
    intro n g m hm
    have hgiven : m ∈ givenBy g (past (serverLoggers p).ev (n + 1)) := by
      rw [past_succ, hm]
      unfold givenBy
      rw [called_append]
      simp [messagesOf, called]
    have he : givenBy g (past (serverLoggers p).ev (n + 1)) = if g = 1 ∧ 0 < n + 1 ∨ g = 2 ∧ 2 < n + 1 then [demoLineLogged] else [] := by
      show givenBy g (past (if p = 0 then _ else _) _) = _
      split
      · exact twoForever_given g (n + 1)
      · exact twoExit_given g (n + 1)
    rw [he] at hgiven
    split at hgiven
    · rw [List.mem_singleton] at hgiven
      subst hgiven
      exact demo_fits.size
    · cases hgiven

/-- All the hypotheses of `C118_gram_partial` (and with it of `C114_gram_mixed_partial`) are met. -/
example : ∃ m d, ∃ ts : List (Nat × Nat × (Nat × LogCall)), (∀ x ∈ ts, x.1 < 2) ∧
    (∀ j, j < 2 → BeforeOn twoLoggers twoProgsOn 12 (fromSender j ts)) ∧
    Each (fun x del => SaysOn (twoLoggers x.2.2.1) x.2.2.2 del) ts ((ofConn 0 (d.map (·.2))).take ts.length) ∧
    ∀ g, ofGoroutine g d <+: messages (returnedTo g (rfinSt .lfEnded 0 gramPool m)) := by
  obtain ⟨r1, r2, r3, r4, r5, r6, r7⟩ := gramPool_meets
  obtain ⟨P0, w0, a1, a2, _⟩ := demo_works
  have he : EndlessSender .lfEnded (flassoEv twoForever 38 5) (flassoSt .lfEnded twoForever 38 5) := by
    rw [← a1, ← a2]; exact w0.endless
  refine C118_gram_partial .lfEnded 2 serverLoggers (fun p _ => serverLoggers_gram p) (fun _ => 12) (by
      intro p hp
      match p with
      | 0 => exact .inl he
      | 1 => exact .inr ⟨29, twoExit_ends⟩) (by
      intro p hp
      match p with
      | 0 => exact .inl he
      | 1 => exact .inr twoExit_quiet)
    0 (fun n => gramPool[n]?) (rfinSt .lfEnded 0 gramPool) r1 r2 0 r3 r4 r5 0 (r6 0) ⟨20, by rw [r7]; omega⟩ poolDs poolAns
    (gramLink_mixed (by omega) fun j hj => ?_)
  match j with
  | 0 => exact pool_link
  | 1 => exact pool_link_of (st := fun n => (fafter .lfEnded twoExit n).s) (M := 29) (twoExit_packets 29 (by omega)) twoExit_some

end Syslog5424
