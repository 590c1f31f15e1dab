import Verif.Spec.Exit
import Verif.Props.GramLogged
/-! # C114: once `End` has returned, the program can exit -/
namespace Syslog5424
open Spec Sender Recv

/-- Where the call of `End` takes place, and what has been written when it returns. -/
theorem end_written {t : Transport} {ev : Nat → Option FEvent} {st : Nat → FState} {n k : Nat} (h : EndsAndExits t ev st n k) :
    ∃ j, n < j ∧ j < k ∧ (frames t (past (onceEv ev st) j)).flatten <+: wire (st k).s := by
  have hx := h.exec
  obtain ⟨g, hcall, hnk, hret, hfirst⟩ := h.ends
  -- where `g` is
  have place : ∀ m, n < m → m ≤ k → (st m).at_ g = .close ∨ ((st m).at_ g = .wait ∧ ∃ j, n < j ∧ j < m ∧ onceEv ev st j = some .endCall) := by
    intro m
    induction m with
    | zero => intro h; omega
    | succ m ih =>
      intro hm hk
      rcases Nat.lt_succ_iff_lt_or_eq.mp hm with hm' | rfl
      · have ihm := ih hm' (by omega)
        cases he : ev m with
        | none =>
          rw [hx.nothing m he]
          rcases ihm with h1 | ⟨h1, j, h2, h3, h4⟩
          · exact .inl h1
          · exact .inr ⟨h1, j, h2, by omega, h4⟩
        | some e =>
          have hs := hx.event m e he
          cases hst : isStepOf g e with
          | false =>
            rcases ihm with h1 | ⟨h1, j, h2, h3, h4⟩
            · exact .inl (by rw [far_at hs hst (by rw [h1]; simp), h1])
            · exact .inr ⟨by rw [far_at hs hst (by rw [h1]; simp), h1], j, h2, by omega, h4⟩
          | true =>
            cases e with
            | call _ _ => simp [isStepOf] at hst
            | other _ => simp [isStepOf] at hst
            | ret g' =>
              simp only [isStepOf, beq_iff_eq] at hst
              subst hst
              exact absurd he (hfirst m hm' (by omega))
            | tau g' =>
              simp only [isStepOf, beq_iff_eq] at hst
              subst hst
              have hcr : (st m).s.crashed = false := by
                cases hc : (st m).s.crashed with
                | false => rfl
                | true => simp [fstep, hc] at hs
              rcases ihm with h1 | ⟨h1, _⟩
              · by_cases hask : (st m).s.endAsked = true
                · -- a second `End` panics, nothing returns afterwards
                  exfalso
                  simp only [fstep, hcr, h1, hask, if_true, Bool.false_eq_true, if_false, Option.some.injEq] at hs
                  have dead : ∀ q, m + 1 ≤ q → (st q).s.crashed = true := by
                    intro q hq
                    induction hq with
                    | refl => rw [← hs]
                    | @step q _ ih' =>
                      cases hq' : ev q with
                      | none => rw [hx.nothing q hq']; exact ih'
                      | some e' =>
                        have := hx.event q e' hq'
                        simp [fstep, ih'] at this
                  have := hx.event k _ hret
                  simp [fstep, dead k hk] at this
                · simp only [fstep, hcr, h1, hask, Bool.false_eq_true, if_false, Option.some.injEq] at hs
                  refine .inr ⟨by rw [← hs]; exact go_at _ _ _, m, hm', by omega, ?_⟩
                  simp [onceEv, he, takesPlace, h1]
              · exfalso
                simp [fstep, hcr, h1] at hs
      · have hs := hx.event n _ hcall
        have hcr : (st n).s.crashed = false := by
          cases hc : (st n).s.crashed with
          | false => rfl
          | true => simp [fstep, hc] at hs
        simp only [fstep, hcr, Bool.false_eq_true, if_false] at hs
        split at hs
        · rename_i h2; cases h2
        · simp only [Option.some.injEq] at hs
          exact .inl (by rw [← hs]; exact go_at _ _ _)
        · cases hs
  have hs := hx.event k _ hret
  have hcr : (st k).s.crashed = false := by
    cases hc : (st k).s.crashed with
    | false => rfl
    | true => simp [fstep, hc] at hs
  rcases place k hnk (Nat.le_refl _) with h1 | ⟨h1, j, h2, h3, h4⟩
  · simp [fstep, hcr, h1] at hs
  · refine ⟨j, h2, h3, ?_⟩
    have hcomp : (st k).s.endCompleted = true := by
      simp only [fstep, hcr, h1, Bool.false_eq_true, if_false] at hs
      split at hs
      · assumption
      · cases hs
    have hh := Sender.history_past (once_exec hx) k
    obtain ⟨r, hr⟩ := past_prefix (onceEv ev st) (show j + 1 ≤ k from h3)
    rw [← hr, past_succ, h4, Option.toList_some, List.append_assoc, List.singleton_append] at hh
    exact C35_end_flushes t _ _ _ hh hcomp hcr

/-- What the sender had taken when `End` took place. -/
theorem end_taken {t : Transport} {ev : Nat → Option FEvent} {st : Nat → FState} {n k : Nat} (h : EndsAndExits t ev st n k)
    (hok : ∀ n g m, ev n = some (.call g (.send m)) → ∃ b, m.marshal = .ret (.ok b)) {j : Nat} (hj : n < j) (g : Nat) :
    returnedBy g (past ev n) <+: ofGoroutine g (sendsOf (lin ev st j)) := by
  have hgiven : ∀ m ∈ givenBy g (past ev j), ∃ b, m.marshal = .ret (.ok b) := by
    intro m hm
    simp only [givenBy, messagesOf, List.mem_filterMap] at hm
    obtain ⟨o, ho, he⟩ := hm
    cases o with
    | endCall => cases he
    | send m' =>
      simp only [Option.some.injEq] at he
      subst he
      obtain ⟨k, _, hk⟩ := mem_called ho
      exact hok k g _ hk
  have h1 := ((lin_inv h.exec j).ex.accepted g).1
  have hsub : ∀ m ∈ messagesOf ((called g (past ev j)).take (returns g (past ev j))), ∃ b, m.marshal = .ret (.ok b) := by
    intro m hm
    exact hgiven m (((List.take_prefix _ _).filterMap _).subset hm)
  rw [show accepted ((called g (past ev j)).take (returns g (past ev j))) = messagesOf ((called g (past ev j)).take (returns g (past ev j))) from messagesOf_map _ hsub] at h1
  refine List.IsPrefix.trans ?_ h1
  refine List.IsPrefix.filterMap _ ?_
  have hc := called_prefix ev g (Nat.le_of_lt hj)
  have hr := returns_mono ev g (Nat.le_of_lt hj)
  obtain ⟨u, hu⟩ := hc
  rw [← hu]
  refine List.IsPrefix.trans (List.take_prefix_take_left hr) ?_
  rw [List.take_append]
  exact List.prefix_append _ _

/-- The stream transports: what was taken when `End` took place is received. -/
theorem exit_stream {t : Transport} {Good : Message → Prop} (hcar : Carries t Good) {ev : Nat → Option FEvent} {st : Nat → FState} {n k : Nat}
    (h : EndsAndExits t ev st n k) (hmsgs : ∀ n g m, ev n = some (.call g (.send m)) → Good m)
    {lenQueue : Nat} {er : Nat → Option REvent} {sr : Nat → RState} (hxr : RExec t lenQueue er sr)
    (hc : ∀ n, (sr n).s.crashed = false) {g0 : Nat} (hworker : Worker t lenQueue g0 er sr) (hret : ∀ g, Returns t lenQueue g er sr)
    (herr : ErrorsDrained fun n => (sr n).s) {f : Nat → Nat}
    (hopen : ∀ j, Opened (fun n => (st n).s) j →
      Served t lenQueue (f j) (fun n => (er n).bind atOnce) (fun n => (sr n).s) ∧ ∃ n, f j < (sr n).s.conns.length)
    (hlink : Links (fun n => (st n).s) f (fun n => (er n).bind atOnce)) :
    ∃ m q a d, ReturnedBefore ev n a ∧ Each IsReceived (a.map (·.2)) ((receivedOver f q (d.map (·.2))).take a.length) ∧
      ∀ g, ofGoroutine g d <+: messages (returnedTo g (sr m)) := by
  have hok : ∀ n g m, ev n = some (.call g (.send m)) → ∃ b, m.marshal = .ret (.ok b) := fun n g m hm => hcar.ok m (hmsgs n g m hm)
  obtain ⟨j, hj, hjk, hwr⟩ := end_written h
  obtain ⟨m0, q, main⟩ := delivered_over hcar (onceEv ev st) (fun n => (st n).s) (once_exec h.exec) (C100_clean _ _ _ (once_exec h.exec) (once_clean h.whole))
    (fun n m hm => by
      obtain ⟨k, g, hk⟩ := once_given h.exec hm
      exact hmsgs k g m hk) lenQueue _ _ (rexec_atOnce hxr) (C102_one_worker _ _ er sr hxr hc g0 hworker) herr hc f hopen hlink j ⟨k, Nat.le_of_lt hjk, hwr⟩
  obtain ⟨d, m, h3, h4⟩ := C102_returned _ _ er sr hxr hc hret m0
  obtain ⟨h1, h2⟩ := taken h.exec hok j
  rw [h2, List.length_map] at main
  exact ⟨m, q, _, d, ⟨j, fun g => ⟨end_taken h hok hj g, h1 g⟩⟩, by rw [h3]; exact main, h4⟩

/-- **C114.** Once `End` has returned, the program can exit, with the RFC 5425 transport: every message whose `Send` had returned when `End` was called is
returned by calls of `Receive` (of several goroutines, at least one of which calls it again and again), eventually, once, the messages of every goroutine
in its order, whatever the sender does later. Missing: writes that fail in the middle of a frame, see `C100_midframe_violated`. -/
theorem C114_delivered_partial (ev : Nat → Option FEvent) (st : Nat → FState) (n k : Nat) (h : EndsAndExits .rfc5425 ev st n k)
    (hmsgs : ∀ n g m, ev n = some (.call g (.send m)) → Transmissible m)
    (lenQueue : Nat) (er : Nat → Option REvent) (sr : Nat → RState) (hxr : RExec .rfc5425 lenQueue er sr)
    (hc : ∀ n, (sr n).s.crashed = false) (g0 : Nat) (hworker : Worker .rfc5425 lenQueue g0 er sr) (hret : ∀ g, Returns .rfc5425 lenQueue g er sr)
    (herr : ErrorsDrained fun n => (sr n).s) (f : Nat → Nat)
    (hopen : ∀ j, Opened (fun n => (st n).s) j →
      Served .rfc5425 lenQueue (f j) (fun n => (er n).bind atOnce) (fun n => (sr n).s) ∧ ∃ n, f j < (sr n).s.conns.length)
    (hlink : Links (fun n => (st n).s) f (fun n => (er n).bind atOnce)) :
    ∃ m q a d, ReturnedBefore ev n a ∧ Each IsReceived (a.map (·.2)) ((receivedOver f q (d.map (·.2))).take a.length) ∧
      ∀ g, ofGoroutine g d <+: messages (returnedTo g (sr m)) :=
  exit_stream carries_5425 h hmsgs hxr hc hworker hret herr hopen hlink

/-- **C114**, with the LF and NUL transports. -/
theorem C114_lines_partial (t : Transport) (z : UInt8) (ht : t = .lfEnded ∧ z = 10 ∨ t = .zeroEnded ∧ z = 0)
    (ev : Nat → Option FEvent) (st : Nat → FState) (n k : Nat) (h : EndsAndExits t ev st n k)
    (hmsgs : ∀ n g m, ev n = some (.call g (.send m)) → TransmissibleLine z m)
    (lenQueue : Nat) (er : Nat → Option REvent) (sr : Nat → RState) (hxr : RExec t lenQueue er sr)
    (hc : ∀ n, (sr n).s.crashed = false) (g0 : Nat) (hworker : Worker t lenQueue g0 er sr) (hret : ∀ g, Returns t lenQueue g er sr)
    (herr : ErrorsDrained fun n => (sr n).s) (f : Nat → Nat)
    (hopen : ∀ j, Opened (fun n => (st n).s) j →
      Served t lenQueue (f j) (fun n => (er n).bind atOnce) (fun n => (sr n).s) ∧ ∃ n, f j < (sr n).s.conns.length)
    (hlink : Links (fun n => (st n).s) f (fun n => (er n).bind atOnce)) :
    ∃ m q a d, ReturnedBefore ev n a ∧ Each IsReceived (a.map (·.2)) ((receivedOver f q (d.map (·.2))).take a.length) ∧
      ∀ g, ofGoroutine g d <+: messages (returnedTo g (sr m)) :=
  exit_stream (carries_lines ht) h hmsgs hxr hc hworker hret herr hopen hlink

theorem given_of_returned {ev : Nat → Option FEvent} {n : Nat} {a : List (Nat × Message)} (h : ReturnedBefore ev n a) (hq : NoSendUnderWay ev n) :
    GivenBefore ev n a := by
  obtain ⟨n', hn⟩ := h
  exact ⟨n', fun g => ⟨by rw [← hq g]; exact (hn g).1, (hn g).2⟩⟩

/-- **C114**, for log lines: when the goroutines that log have returned from their lines, and `End` has been called and has returned, the program can exit: all the
lines (that pass the threshold) will be returned by `Receive`. -/
theorem C114_logged_partial (host : Option Bytes) (pid out : Nat) (p : Int) (app : Bytes) (hpid : pid < 2 ^ 63) (s0 s : Syslog) (x : Int)
    (c0 : Channel) (h0 : Syslog.new host pid out p app = some s0) (hfirst : s0.channel x = .ret (s, c0))
    (prog : Nat → Nat → List LogCall) (hl : ∀ g n, ∀ c ∈ prog g n, Loggable c)
    (ev : Nat → Option FEvent) (st : Nat → FState) (hlog : BeginLines s out prog ev)
    (hsize : ∀ n g m, ev n = some (.call g (.send m)) → ∀ b, m.marshal = .ret (.ok b) → b.length < 2 ^ 62)
    (n k : Nat) (h : EndsAndExits .rfc5425 ev st n k) (hq : NoSendUnderWay ev n)
    (lenQueue : Nat) (er : Nat → Option REvent) (sr : Nat → RState) (hxr : RExec .rfc5425 lenQueue er sr)
    (hc : ∀ n, (sr n).s.crashed = false) (g0 : Nat) (hworker : Worker .rfc5425 lenQueue g0 er sr) (hret : ∀ g, Returns .rfc5425 lenQueue g er sr)
    (herr : ErrorsDrained fun n => (sr n).s) (f : Nat → Nat)
    (hopen : ∀ j, Opened (fun n => (st n).s) j →
      Served .rfc5425 lenQueue (f j) (fun n => (er n).bind atOnce) (fun n => (sr n).s) ∧ ∃ n, f j < (sr n).s.conns.length)
    (hlink : Links (fun n => (st n).s) f (fun n => (er n).bind atOnce)) :
    ∃ m q a d, LinesBefore p prog n a ∧ Each (Says host pid p app) (a.map (·.2)) ((receivedOver f q (d.map (·.2))).take a.length) ∧
      ∀ g, ofGoroutine g d <+: messages (returnedTo g (sr m)) := by
  have hmsgs : ∀ n g m, ev n = some (.call g (.send m)) → Transmissible m := by
    intro n g m h
    obtain ⟨cl, h1, h2⟩ := line_of_call h0 hfirst hlog h
    exact ⟨says_intact hpid h2 (hl g (n + 1) cl h1), hsize n g m h⟩
  obtain ⟨m, q, a, d, ha, main, h4⟩ := C114_delivered_partial ev st n k h hmsgs lenQueue er sr hxr hc g0 hworker hret herr f hopen hlink
  obtain ⟨n', ha⟩ := given_of_returned ha hq
  obtain ⟨b, h1, h2⟩ := lines_said h0 hfirst hlog ha
  refine ⟨m, q, b, d, h1, ?_, h4⟩
  have hlen : b.length = a.length := by have := each_length h2; simpa using this.symm
  rw [hlen]
  exact each_trans h2 main (fun _ _ _ _ u v => says_received u v)

/-- **C114**, log lines with the LF and NUL transports. -/
theorem C114_logged_lines_partial (t : Transport) (z : UInt8) (ht : t = .lfEnded ∧ z = 10 ∨ t = .zeroEnded ∧ z = 0)
    (host : Option Bytes) (pid out : Nat) (p : Int) (app : Bytes) (hpid : pid < 2 ^ 63) (s0 s : Syslog) (x : Int)
    (c0 : Channel) (h0 : Syslog.new host pid out p app = some s0) (hfirst : s0.channel x = .ret (s, c0))
    (prog : Nat → Nat → List LogCall) (hl : ∀ g n, ∀ c ∈ prog g n, LoggableLine z c)
    (ev : Nat → Option FEvent) (st : Nat → FState) (hlog : BeginLines s out prog ev)
    (n k : Nat) (h : EndsAndExits t ev st n k) (hq : NoSendUnderWay ev n)
    (lenQueue : Nat) (er : Nat → Option REvent) (sr : Nat → RState) (hxr : RExec t lenQueue er sr)
    (hc : ∀ n, (sr n).s.crashed = false) (g0 : Nat) (hworker : Worker t lenQueue g0 er sr) (hret : ∀ g, Returns t lenQueue g er sr)
    (herr : ErrorsDrained fun n => (sr n).s) (f : Nat → Nat)
    (hopen : ∀ j, Opened (fun n => (st n).s) j →
      Served t lenQueue (f j) (fun n => (er n).bind atOnce) (fun n => (sr n).s) ∧ ∃ n, f j < (sr n).s.conns.length)
    (hlink : Links (fun n => (st n).s) f (fun n => (er n).bind atOnce)) :
    ∃ m q a d, LinesBefore p prog n a ∧ Each (Says host pid p app) (a.map (·.2)) ((receivedOver f q (d.map (·.2))).take a.length) ∧
      ∀ g, ofGoroutine g d <+: messages (returnedTo g (sr m)) := by
  have hmsgs : ∀ n g m, ev n = some (.call g (.send m)) → TransmissibleLine z m := by
    intro n g m h
    obtain ⟨cl, h1, h2⟩ := line_of_call h0 hfirst hlog h
    exact says_line hpid h2 (hl g (n + 1) cl h1)
  obtain ⟨m, q, a, d, ha, main, h4⟩ := C114_lines_partial t z ht ev st n k h hmsgs lenQueue er sr hxr hc g0 hworker hret herr f hopen hlink
  obtain ⟨n', ha⟩ := given_of_returned ha hq
  obtain ⟨b, h1, h2⟩ := lines_said h0 hfirst hlog ha
  refine ⟨m, q, b, d, h1, ?_, h4⟩
  have hlen : b.length = a.length := by have := each_length h2; simpa using this.symm
  rw [hlen]
  exact each_trans h2 main (fun _ _ _ _ u v => says_received u v)

/-! ## datagram sockets -/

/-- **C114** (partial), datagram sockets: any number of programs, each with goroutines that send, each of which calls `End` at its own moment, waits for its return, and
exits. Missing: longer messages (`C74_stall_violated`). -/
theorem C114_gram_partial (t : Transport) (count : Nat) (ev : Nat → Nat → Option FEvent) (st : Nat → Nat → FState) (n k : Nat → Nat)
    (h : ∀ j, j < count → EndsAndExits t (ev j) (st j) (n j) (k j))
    (hmsgs : ∀ j, j < count → ∀ n g m, ev j n = some (.call g (.send m)) → FitsDatagram t m)
    (lenQueue : Nat) (er : Nat → Option REvent) (sr : Nat → RState) (hxr : RExec t lenQueue er sr)
    (hc : ∀ n, (sr n).s.crashed = false) (g0 : Nat) (hworker : Worker t lenQueue g0 er sr) (hret : ∀ g, Returns t lenQueue g er sr)
    (herr : ErrorsDrained fun n => (sr n).s) (i : Nat) (hserve : Served t lenQueue i (fun n => (er n).bind atOnce) (fun n => (sr n).s))
    (hi : ∃ n, i < (sr n).s.conns.length) (ds : Nat → List (Nat × Bytes)) (answers : Nat → List Net.Recv)
    (hlink : GramLink t count (fun j n => (st j n).s) i (fun n => (er n).bind atOnce) ds answers) :
    ∃ m d, ∃ ts : List (Nat × Nat × Message), (∀ x ∈ ts, x.1 < count) ∧ (∀ j, j < count → ReturnedBefore (ev j) (n j) (fromSender j ts)) ∧
      Each IsReceived (ts.map (·.2.2)) ((ofConn i (d.map (·.2))).take ts.length) ∧ ∀ g, ofGoroutine g d <+: messages (returnedTo g (sr m)) := by
  have hok : ∀ j, j < count → ∀ n g m, ev j n = some (.call g (.send m)) → ∃ b, m.marshal = .ret (.ok b) := fun j hj n g m hm => by
    obtain ⟨b, _, hb, _⟩ := transmissible_frame (hmsgs j hj n g m hm).toIntact
    exact ⟨b, hb⟩
  have hN : ∀ j, ∃ N, j < count → n j < N ∧ frames t (past (onceEv (ev j) (st j)) N) <+: packets (st j (k j)).s := by
    intro j
    by_cases hj : j < count
    · obtain ⟨N, h1, h2, hwr⟩ := end_written (h j hj)
      refine ⟨N, fun _ => ⟨h1, ?_⟩⟩
      have hx := once_exec (h j hj).exec
      obtain ⟨waiting, hwt⟩ := C37_datagram_partial t _ _ (Sender.history_past hx (k j)) (by
        intro nb x hmem
        simp only [past, List.mem_filterMap, List.mem_range] at hmem
        obtain ⟨i, _, hi⟩ := hmem
        exact once_clean (h j hj).whole i nb x hi)
      have hp : frames t (past (onceEv (ev j) (st j)) N) <+: frames t (past (onceEv (ev j) (st j)) (k j)) := by
        obtain ⟨r, hr⟩ := past_prefix (onceEv (ev j) (st j)) (Nat.le_of_lt h2)
        rw [← hr, Sender.frames_append]
        exact ⟨_, rfl⟩
      rw [wire_packets] at hwr
      exact flatten_prefix_imp (frames_ne_nil t _) hp ⟨waiting, hwt⟩ hwr
    · exact ⟨0, fun h => absurd h hj⟩
  obtain ⟨N, hN⟩ : ∃ N : Nat → Nat, ∀ j, j < count → n j < N j ∧ frames t (past (onceEv (ev j) (st j)) (N j)) <+: packets (st j (k j)).s :=
    ⟨fun j => (hN j).choose, fun j => (hN j).choose_spec⟩
  obtain ⟨m, d, ts, h1, h2, h3, h4⟩ := gram_many t count ev st (fun j hj => (h j hj).exec) (fun j hj => (h j hj).whole) hmsgs lenQueue er sr hxr hc g0 hworker hret herr i
    hserve hi ds answers hlink N (fun j hj => ⟨k j, (hN j hj).2⟩)
  refine ⟨m, d, ts, h1, fun j hj => ?_, h3, h4⟩
  obtain ⟨k1, n', k2⟩ := h2 j hj
  exact ⟨n', fun g => ⟨(end_taken (h j hj) (hok j hj) (hN j hj).1 g).trans (ofGoroutine_prefix g k1),
    (ofGoroutine_prefix g k2).trans ((taken (h j hj).exec (hok j hj) n').1 g)⟩⟩

/-- **C114** (partial), datagram sockets, for log lines: the lines that pass the threshold of all the programs will be returned by `Receive`. Missing:
longer lines (`C74_stall_violated`). -/
theorem C114_gram_logged_partial (t : Transport) (count : Nat) (P : Nat → LoggingProgram) (hlogs : ∀ j, j < count → (P j).Logs t) (n k : Nat → Nat)
    (h : ∀ j, j < count → EndsAndExits t (P j).ev (P j).st (n j) (k j)) (hq : ∀ j, j < count → NoSendUnderWay (P j).ev (n j))
    (lenQueue : Nat) (er : Nat → Option REvent) (sr : Nat → RState) (hxr : RExec t lenQueue er sr)
    (hc : ∀ n, (sr n).s.crashed = false) (g0 : Nat) (hworker : Worker t lenQueue g0 er sr) (hret : ∀ g, Returns t lenQueue g er sr)
    (herr : ErrorsDrained fun n => (sr n).s) (i : Nat) (hserve : Served t lenQueue i (fun n => (er n).bind atOnce) (fun n => (sr n).s))
    (hi : ∃ n, i < (sr n).s.conns.length) (ds : Nat → List (Nat × Bytes)) (answers : Nat → List Net.Recv)
    (hlink : GramLink t count (fun j n => ((P j).st n).s) i (fun n => (er n).bind atOnce) ds answers) :
    ∃ m d, ∃ ts : List (Nat × Nat × LogCall), (∀ x ∈ ts, x.1 < count) ∧
      (∀ j, j < count → LinesBefore (P j).prio (P j).lines (n j) (fromSender j ts)) ∧
      Each (fun x del => Says (P x.1).host (P x.1).pid (P x.1).prio (P x.1).app x.2.2 del) ts ((ofConn i (d.map (·.2))).take ts.length) ∧
      ∀ g, ofGoroutine g d <+: messages (returnedTo g (sr m)) := by
  obtain ⟨m, d, us, h1, h2, h3, h4⟩ := C114_gram_partial t count (fun j => (P j).ev) (fun j => (P j).st) n k h
    (fun j hj _ _ _ hm => works_fits (hlogs j hj) hm) lenQueue er sr hxr hc g0 hworker hret herr i hserve hi ds answers hlink
  obtain ⟨ts, hl, k1, k2, k3⟩ := gram_lines hlogs h1 (fun j hj => given_of_returned (h2 j hj) (hq j hj)) h3
  exact ⟨m, d, ts, k1, k2, by rw [hl]; exact k3, h4⟩

/-! ## executions that meet the hypotheses

Two goroutines log, wait for `Send`, and a third one calls `End`; nothing was written before. -/

def twoExit : List FEvent :=
  [.call 1 (.send demoLineLogged), .tau 1, .call 2 (.send demoLineLogged)] ++
  ([.tau 1, .tau 1, .tau 1, .ret 1, .tau 2, .tau 2, .tau 2, .tau 2, .ret 2, .call 3 .endCall, .tau 3] ++
  ([.seeEnd, .tau, .tau, .connect none, .tau, .tau, .write 61 none, .write 61 none, .tau, .tau, .tau, .tau, .tau, .tau, .tau] : List Sender.Event).map .other ++ [.ret 3])

theorem twoExit_run : (frun .lfEnded finit twoExit).isSome = true := by decide +kernel

theorem twoExit_exec : FExec .lfEnded (fun n => twoExit[n]?) (fafter .lfEnded twoExit) := by
  refine ⟨rfl, ?_, ?_⟩
  · intro n e he
    have h1 := fafter_run twoExit_run n
    have h2 := fafter_run twoExit_run (n + 1)
    rw [List.take_add_one, he, Option.toList_some, frun_append, h1] at h2
    simpa [frun] using h2
  · intro n he
    have hl : twoExit.length ≤ n := List.getElem?_eq_none_iff.mp he
    unfold fafter
    rw [List.take_of_length_le hl, List.take_of_length_le (by omega)]

theorem twoExit_past (n : Nat) : past (fun n => twoExit[n]?) n = twoExit.take n := by
  induction n with
  | zero => rfl
  | succ n ih => rw [past_succ, ih, List.take_add_one]

theorem no_sends {g : Nat} {l : List FEvent} (h : ∀ e ∈ l, ∀ g m, e ≠ .call g (.send m)) : givenBy g l = [] := by
  induction l with
  | nil => rfl
  | cons e l ih =>
    have ihl := ih fun e he => h e (by simp [he])
    cases e with
    | call g' o =>
      cases o with
      | send m => exact absurd rfl (h _ (by simp) g' m)
      | endCall =>
        by_cases hg : g' = g
        · simpa [givenBy, called, hg, messagesOf] using ihl
        · simpa [givenBy, called, hg, messagesOf] using ihl
    | tau _ => exact ihl
    | ret _ => exact ihl
    | other _ => exact ihl

theorem twoExit_given (g n : Nat) : givenBy g (past (fun n => twoExit[n]?) n) = if g = 1 ∧ 0 < n ∨ g = 2 ∧ 2 < n then [demoLineLogged] else [] := by
  rw [twoExit_past]
  have happ : ∀ a b : List FEvent, givenBy g (a ++ b) = givenBy g a ++ givenBy g b := by
    intro a b
    unfold givenBy
    rw [called_append]
    simp [messagesOf]
  have key : ∀ l : List FEvent, givenBy g (.call 1 (.send demoLineLogged) :: l) = (if g = 1 then [demoLineLogged] else []) ++ givenBy g l := by
    intro l
    by_cases hg : g = 1
    · simp [givenBy, called, hg, messagesOf]
    · simp [givenBy, called, hg, messagesOf, Ne.symm hg]
  match n with
  | 0 => simp [givenBy, called, messagesOf]
  | 1 =>
    rw [show twoExit.take 1 = .call 1 (.send demoLineLogged) :: [] from rfl, key]
    simp [givenBy, called, messagesOf]
  | 2 =>
    rw [show twoExit.take 2 = .call 1 (.send demoLineLogged) :: [.tau 1] from rfl, key]
    simp [givenBy, called, messagesOf]
  | n + 3 =>
    have e : twoExit.take (n + 3) = .call 1 (.send demoLineLogged) :: .tau 1 :: .call 2 (.send demoLineLogged) :: (twoExit.drop 3).take n := rfl
    have hd : givenBy g ((twoExit.drop 3).take n) = [] := by
      apply no_sends
      intro e he g m
      have := List.mem_of_mem_take he
      have hall : ((twoExit.drop 3).all fun e => match e with | .call _ (.send _) => false | _ => true) = true := by decide +kernel
      have := List.all_eq_true.mp hall e this
      rintro rfl
      cases this
    have k2 : givenBy g (.tau 1 :: .call 2 (.send demoLineLogged) :: (twoExit.drop 3).take n) = (if g = 2 then [demoLineLogged] else []) ++ givenBy g ((twoExit.drop 3).take n) := by
      by_cases hg : g = 2
      · simp [givenBy, called, hg, messagesOf]
      · simp [givenBy, called, hg, messagesOf, Ne.symm hg]
    rw [e, key, k2, hd]
    by_cases h1 : g = 1
    · simp [h1]
    · by_cases h2 : g = 2 <;> simp [h1, h2]

theorem twoExit_ends : EndsAndExits .lfEnded (fun n => twoExit[n]?) (fafter .lfEnded twoExit) 12 29 where
  exec := twoExit_exec
  whole := by
    intro n nb x he
    have hm := List.mem_of_getElem? he
    have hall : (twoExit.all fun e => match e with | .other (.write _ (some _)) => false | _ => true) = true := by decide +kernel
    have := List.all_eq_true.mp hall _ hm
    cases this
  ends := by
    refine ⟨3, rfl, by omega, rfl, ?_⟩
    intro j h1 h2 he
    have hall : ∀ j, j < 29 → (match (twoExit[(j : Nat)]?) with | some (FEvent.ret 3) => false | _ => true) = true := by decide +kernel
    have := hall j h2
    change twoExit[j]? = _ at he
    rw [he] at this
    cases this

theorem twoExit_quiet : NoSendUnderWay (fun n => twoExit[n]?) 12 := by
  intro g
  rw [twoExit_past]
  have e : twoExit.take 12 = [.call 1 (.send demoLineLogged), .tau 1, .call 2 (.send demoLineLogged), .tau 1, .tau 1, .tau 1, .ret 1, .tau 2, .tau 2, .tau 2, .tau 2, .ret 2] := rfl
  rw [e]
  by_cases h1 : g = 1
  · subst h1; rfl
  · by_cases h2 : g = 2
    · subst h2; rfl
    · simp [returnedBy, givenBy, called, Ne.symm h1, Ne.symm h2, messagesOf]

theorem twoExit_packets : ∀ i, i < 31 → packets (fafter .lfEnded twoExit i).s =
    if i ≤ 20 then [] else if i ≤ 21 then [demoLineLoggedFrame] else [demoLineLoggedFrame, demoLineLoggedFrame] := by decide +kernel

theorem twoExit_after (n : Nat) : fafter .lfEnded twoExit n = fafter .lfEnded twoExit (min n 30) := by
  unfold fafter
  rw [show min n 30 = min n twoExit.length from rfl, ← List.take_take, List.take_length]

theorem twoExit_some (n : Nat) : packets (fafter .lfEnded twoExit n).s <+: [demoLineLoggedFrame, demoLineLoggedFrame] := by
  rw [twoExit_after, twoExit_packets _ (by omega)]
  split
  · exact List.nil_prefix
  · split
    · exact ⟨[demoLineLoggedFrame], rfl⟩
    · exact List.prefix_rfl

/-- The program of the example. -/
theorem exit_logs : ∃ P : LoggingProgram, P.Logs .lfEnded ∧ P.ev = (fun n => twoExit[n]?) ∧ P.st = fafter .lfEnded twoExit ∧
    P.lines = twoProgs ∧ P.host = some b!"host" ∧ P.pid = 42 ∧ P.prio = 166 ∧ P.app = b!"app" ∧ ∀ g n, ∀ c ∈ P.lines g n, LoggableLine 10 c := by
  obtain ⟨s0, s, c0, k1, k2, k3, k4, _⟩ := twoForever_meets
  have hb : BeginLines s 3 twoProgs (fun n => twoExit[n]?) := by
    refine ⟨k3.1, fun g n => ?_⟩
    rw [twoExit_given, ← twoForever_given]
    exact k3.2 g n
  refine ⟨⟨some b!"host", 42, 3, 166, b!"app", s0, s, 0, c0, twoProgs, fun n => twoExit[n]?, fafter .lfEnded twoExit⟩,
    ⟨by show 42 < 2 ^ 63; decide, k1, k2, ?_, ?_, hb, ?_⟩, rfl, rfl, rfl, rfl, rfl, rfl, rfl, fun g n c hc => demoLineLog_loggable c (k4 g n c hc)⟩
  · intro g n c hc
    have := demoLineLog_loggable c (k4 g n c hc)
    exact ⟨this.time, ⟨[], by rw [this.sd]; exact ⟨rfl, by simp⟩⟩, fun h => absurd this.sd h⟩
  · intro z hz g n c hc x hx
    cases hz
    exact (demoLineLog_loggable c (k4 g n c hc)).text x hx
  · intro n g m hm b hb
    have hall : (twoExit.all fun e => match e with
      | FEvent.call _ (.send m) => (match m.marshal with | .ret (.ok b) => decide ((Transport.lfEnded.encode b).length ≤ 500) | _ => true)
      | _ => true) = true := by decide +kernel
    have := List.all_eq_true.mp hall _ (List.mem_of_getElem? hm)
    simp only [hb, decide_eq_true_eq] at this
    exact this

/-- All the hypotheses of `C114_gram_logged_partial` are met: two programs, each of which exits. -/
example : ∃ m d, ∃ ts : List (Nat × Nat × LogCall), (∀ x ∈ ts, x.1 < 2) ∧
    (∀ j, j < 2 → demoLineLog.take 1 <+: ofGoroutine 1 (fromSender j ts) ∧ demoLineLog.take 1 <+: ofGoroutine 2 (fromSender j ts)) ∧
    Each (fun x del => Says (some b!"host") 42 166 b!"app" x.2.2 del) ts ((ofConn 0 (d.map (·.2))).take ts.length) ∧
    ∀ g, ofGoroutine g d <+: messages (returnedTo g (rfinSt .lfEnded 0 gramPool m)) := by
  obtain ⟨r1, r2, r3, r4, r5, r6, r7⟩ := gramPool_meets
  obtain ⟨P, w, e1, e2, e3, e4, e5, e6, e7, _⟩ := exit_logs
  obtain ⟨m, d, ts, g1, g2, g3, g4⟩ := C114_gram_logged_partial .lfEnded 2 (fun _ => P) (fun _ _ => w) (fun _ => 12) (fun _ => 29)
    (fun _ _ => by rw [e1, e2]; exact twoExit_ends) (fun _ _ => by rw [e1]; exact twoExit_quiet) 0 (fun n => gramPool[n]?) (rfinSt .lfEnded 0 gramPool) r1 r2 0
    r3 r4 r5 0 (r6 0) ⟨20, by rw [r7]; omega⟩ poolDs poolAns (by
      rw [e2]
      exact pool_link_of (st := fun n => (fafter .lfEnded twoExit n).s) (M := 29) (twoExit_packets 29 (by omega)) twoExit_some)
  rw [e4, e5, e6, e7] at g3
  refine ⟨m, d, ts, g1, fun j hj => ?_, g3, g4⟩
  obtain ⟨n', h⟩ := g2 j hj
  rw [e6, e3] at h
  have hp : passing 166 (demoLineLog.take 1) = demoLineLog.take 1 := by with_unfolding_all rfl
  have k1 := (h 1).1
  have k2 := (h 2).1
  rw [show twoProgs 1 12 = demoLineLog.take 1 from rfl, hp] at k1
  rw [show twoProgs 2 12 = demoLineLog.take 1 from rfl, hp] at k2
  exact ⟨k1, k2⟩

/-! The same program with a stream, and the two goroutines that receive. -/

def exitPool : List REvent :=
  [.call 0 .receive, .call 1 .receive, .other .tau, .other .acceptOk,
   .other (.read 0 { data := demoLineLoggedFrame }), .take 0 (.direct 0), .ret 0, .call 0 .receive,
   .other (.read 0 { data := demoLineLoggedFrame }), .take 1 (.direct 0), .ret 1, .call 1 .receive]

theorem exitPool_run : ∃ f, rrun .lfEnded 0 rinit exitPool = some f ∧ AtEase f := by
  have h0 : ∃ f, rrun .lfEnded 0 rinit (exitPool.take 4) = some f ∧ AtEase f :=
    ⟨_, rfl, rfl, rfl, rfl, rfl, ⟨Conn.new, rfl, atRest_init, rfl, rfl, rfl⟩, rfl, rfl⟩
  obtain ⟨f0, r0, h0⟩ := h0
  obtain ⟨f1, r1, h1⟩ := ease_round h0 0 (.inl rfl)
  obtain ⟨f2, r2, h2⟩ := ease_round h1 1 (.inr rfl)
  refine ⟨f2, ?_, h2⟩
  have e : exitPool = exitPool.take 4 ++ ([.other (.read 0 { data := demoLineLoggedFrame }), .take 0 (.direct 0), .ret 0, .call 0 .receive] ++
    [.other (.read 0 { data := demoLineLoggedFrame }), .take 1 (.direct 0), .ret 1, .call 1 .receive]) := rfl
  rw [e, rrun_append, r0, Option.bind_some, rrun_append, r1, Option.bind_some, r2]

theorem twoExit_conns : ∀ i, i < 31 → (fafter .lfEnded twoExit i).s.conns.length = (if i ≤ 17 then 0 else 1) ∧
    connBytes 0 (fafter .lfEnded twoExit i).s = (packets (fafter .lfEnded twoExit i).s).flatten := by decide +kernel

/-- All the hypotheses of `C114_logged_lines_partial` (and with it of `C114_lines_partial`) are met. -/
example : ∃ m q a d, demoLineLog.take 1 <+: ofGoroutine 1 a ∧ demoLineLog.take 1 <+: ofGoroutine 2 a ∧
    Each (Says (some b!"host") 42 166 b!"app") (a.map (·.2)) ((receivedOver id q (d.map (·.2))).take a.length) ∧
    ∀ g, ofGoroutine g d <+: messages (returnedTo g (rfinSt .lfEnded 0 exitPool m)) := by
  obtain ⟨f, hf, hat⟩ := exitPool_run
  obtain ⟨c, hc1, _, _, hc2⟩ := hat.one
  obtain ⟨r1, r2, r3, r4, r5, r6⟩ := rpool_fair hf hat.lives hat.pipe hat.opened hat.errs (by
      intro c' hc'
      rw [hc1, List.mem_singleton] at hc'
      subst hc'; exact hc2) (by
    intro g
    match g with
    | 0 => exact Or.inl hat.zero
    | 1 => exact Or.inl hat.first
    | g + 2 =>
      right
      refine untouched hf rfl ?_
      intro e he
      simp only [exitPool, List.mem_cons, List.not_mem_nil, or_false] at he
      rcases he with rfl | rfl | rfl | rfl | rfl | rfl | rfl | rfl | rfl | rfl | rfl | rfl <;> simp [isReceiverOf]) (by
    intro g h
    simp [exitPool] at h)
  obtain ⟨P, w, e1, e2, e3, e4, e5, e6, e7, e8⟩ := exit_logs
  have hopened : ∀ j, Opened (fun n => (fafter .lfEnded twoExit n).s) j → j = 0 := by
    rintro j ⟨n, hn⟩
    simp only [twoExit_after n, (twoExit_conns (min n 30) (by omega)).1] at hn
    split at hn <;> omega
  have hbytes : ∀ n, connBytes 0 (fafter .lfEnded twoExit n).s <+: demoLineLoggedFrame ++ demoLineLoggedFrame := by
    intro n
    rw [twoExit_after, (twoExit_conns (min n 30) (by omega)).2]
    obtain ⟨r, hr⟩ := twoExit_some (min n 30)
    have := congrArg List.flatten hr
    rw [List.flatten_append] at this
    refine ⟨r.flatten, this.trans ?_⟩
    simp
  have hall : arrived (readsOf 0 (exitPool.filterMap atOnce)) = demoLineLoggedFrame ++ demoLineLoggedFrame := by decide +kernel
  have h29 : connBytes 0 (fafter .lfEnded twoExit 29).s = demoLineLoggedFrame ++ demoLineLoggedFrame := by
    rw [(twoExit_conns 29 (by omega)).2, twoExit_packets 29 (by omega)]; simp
  obtain ⟨m, q, a, d, ⟨n', ha⟩, g3, g4⟩ := C114_logged_lines_partial .lfEnded 10 (.inl ⟨rfl, rfl⟩) P.host P.pid P.out P.prio P.app w.pid P.log0 P.log P.sev P.chan
    w.new w.first P.lines e8 P.ev P.st w.logs 12 29 (by rw [e1, e2]; exact twoExit_ends) (by rw [e1]; exact twoExit_quiet) 0 (fun n => exitPool[n]?)
    (rfinSt .lfEnded 0 exitPool) r1 r2 0 (r3 0 hat.zero) r4 r5 id (by
      rw [e2]
      intro j hj
      refine ⟨r6 j, 12, ?_⟩
      rw [rfin_end hf (by decide), hc1, hopened j hj]
      exact Nat.zero_lt_one) (by
      rw [e2]
      refine ⟨?_, ?_⟩
      · intro j hj m
        rw [hopened j hj]
        refine ⟨29, ?_⟩
        show arrived (readsOf 0 _) <+: _
        rw [h29, past_atOnce, ← hall]
        conv => rhs; rw [← List.take_append_drop m exitPool, List.filterMap_append, Recv.readsOf_append]
        simp only [arrived, List.flatMap_append]
        exact List.prefix_append _ _
      · intro j hj n
        rw [hopened j hj]
        refine ⟨12, ?_⟩
        show _ <+: arrived (readsOf 0 _)
        rw [past_atOnce, List.take_of_length_le (by decide), hall]
        exact hbytes n)
  rw [e4, e5, e6, e7] at g3
  rw [e6, e3] at ha
  have hp : passing 166 (demoLineLog.take 1) = demoLineLog.take 1 := by with_unfolding_all rfl
  have k1 := (ha 1).1
  have k2 := (ha 2).1
  rw [show twoProgs 1 12 = demoLineLog.take 1 from rfl, hp] at k1
  rw [show twoProgs 2 12 = demoLineLog.take 1 from rfl, hp] at k2
  exact ⟨m, q, a, d, k1, k2, g3, g4⟩

end Syslog5424
