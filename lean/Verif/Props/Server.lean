import Verif.Spec.Server
import Verif.Props.Exit
/-! # C115: programs that log to one server over stream connections -/
namespace Syslog5424
open Spec Sender Recv

theorem carries_travels (t : Transport) : Carries t (TravelsOver t) := by
  cases t with
  | rfc5425 =>
    exact ⟨fun m h => carries_5425.ok m (h.1 rfl), fun ms h => carries_5425.back ms fun m hm => (h m hm).1 rfl⟩
  | lfEnded =>
    have c := carries_lines (t := .lfEnded) (z := 10) (.inl ⟨rfl, rfl⟩)
    exact ⟨fun m h => c.ok m (h.2 10 rfl), fun ms h => c.back ms fun m hm => (h m hm).2 10 rfl⟩
  | zeroEnded =>
    have c := carries_lines (t := .zeroEnded) (z := 0) (.inr ⟨rfl, rfl⟩)
    exact ⟨fun m h => c.ok m (h.2 0 rfl), fun ms h => c.back ms fun m hm => (h m hm).2 0 rfl⟩

theorem returned_of_given {ev : Nat → Option FEvent} {n : Nat} {a : List (Nat × Message)} (h : GivenBefore ev n a) : ReturnedBefore ev n a := by
  obtain ⟨n', h⟩ := h
  exact ⟨n', fun g => ⟨((List.take_prefix _ _).filterMap _).trans (h g).1, (h g).2⟩⟩

/-- One program. -/
theorem program_received {t : Transport} {ev : Nat → Option FEvent} {st : Nat → FState} {n : Nat} (h : RunsOrExits t ev st n)
    (hmsgs : ∀ i g m, ev i = some (.call g (.send m)) → TravelsOver t m)
    {lenQueue : Nat} {er : Nat → Option Recv.Event} {sr : Nat → Recv.State}
    (hxr : ReceiverExec t lenQueue er sr) (hcons : Consumed t lenQueue er sr) (herr : ErrorsDrained sr) (hc : ∀ n, (sr n).crashed = false)
    {f : Nat → Nat} (hopen : ∀ j, Opened (fun n => (st n).s) j → Served t lenQueue (f j) er sr ∧ ∃ n, f j < (sr n).conns.length)
    (hlink : Links (fun n => (st n).s) f er) :
    ∃ m k a, ReturnedBefore ev n a ∧ (EndlessSender t ev st → GivenBefore ev n a) ∧
      ∀ m', m ≤ m' → Each IsReceived (a.map (·.2)) ((receivedOver f k (sr m').got).take a.length) := by
  have hcar := carries_travels t
  have hok : ∀ n g m, ev n = some (.call g (.send m)) → ∃ b, m.marshal = .ret (.ok b) := fun n g m hm => hcar.ok m (hmsgs n g m hm)
  by_cases he : EndlessSender t ev st
  · obtain ⟨n', h1, h2⟩ := all_taken he.exec he.lives he.runner he.goroutines he.errors hok he.noEnd n
    obtain ⟨m, k, main⟩ := delivered_over_stays hcar _ _ (once_exec he.exec) (C100_clean _ _ _ (once_exec he.exec) (once_clean he.whole)) (fun n m hm => by
        obtain ⟨k, g, h⟩ := once_given he.exec hm
        exact hmsgs k g m h) lenQueue er sr hxr hcons herr hc f hopen hlink n'
      (C82_written _ _ _ (once_exec he.exec) (once_running he.exec he.lives he.runner he.goroutines) he.errors (once_recovers he.recovers)
        (once_no_end he.exec he.lives he.noEnd) he.lives n')
    rw [h2, List.length_map] at main
    exact ⟨m, k, _, returned_of_given ⟨n', h1⟩, fun _ => ⟨n', h1⟩, main⟩
  · obtain ⟨k, h⟩ := h.resolve_left he
    obtain ⟨j, hj, hjk, hwr⟩ := end_written h
    obtain ⟨m0, q, main⟩ := delivered_over_stays hcar (onceEv ev st) (fun n => (st n).s) (once_exec h.exec) (C100_clean _ _ _ (once_exec h.exec) (once_clean h.whole))
      (fun n m hm => by
        obtain ⟨k, g, hk⟩ := once_given h.exec hm
        exact hmsgs k g m hk) lenQueue er sr hxr hcons herr hc f hopen hlink j ⟨k, Nat.le_of_lt hjk, hwr⟩
    obtain ⟨h1, h2⟩ := taken h.exec hok j
    rw [h2, List.length_map] at main
    exact ⟨m0, q, _, ⟨j, fun g => ⟨end_taken h hok hj g, h1 g⟩⟩, fun e => absurd e he, main⟩

/-- **C115.** A server: any number of programs send to one receiver over stream connections, each from several goroutines, each changing its connection when it
fails, some of them for ever, some until they call `End` and exit. At some moment the calls of `Receive` (of several goroutines of the server) have
returned, of all the programs, every message whose `Send` had returned before the moment `n p` (when the program goes on: every message given to `Send`
before it), once, the messages of every goroutine in its order. Missing: writes that fail in the middle of a frame (`C100_midframe_violated`). -/
theorem C115_delivered_partial (t : Transport) (count : Nat) (ev : Nat → Nat → Option FEvent) (st : Nat → Nat → FState) (n : Nat → Nat)
    (h : ∀ p, p < count → RunsOrExits t (ev p) (st p) (n p)) (hmsgs : ∀ p, p < count → ∀ i g m, ev p i = some (.call g (.send m)) → TravelsOver t m)
    (lenQueue : Nat) (er : Nat → Option REvent) (sr : Nat → RState) (hxr : RExec t lenQueue er sr)
    (hc : ∀ n, (sr n).s.crashed = false) (g0 : Nat) (hworker : Worker t lenQueue g0 er sr) (hret : ∀ g, Returns t lenQueue g er sr)
    (herr : ErrorsDrained fun n => (sr n).s) (f : Nat → Nat → Nat)
    (hlinks : ServerLinks t lenQueue count (fun p n => (st p n).s) f (fun n => (er n).bind atOnce) fun n => (sr n).s) :
    ∃ m d, (∀ g, ofGoroutine g d <+: messages (returnedTo g (sr m))) ∧
      ∀ p, p < count → ∃ k a, ReturnedBefore (ev p) (n p) a ∧ (EndlessSender t (ev p) (st p) → GivenBefore (ev p) (n p) a) ∧
        Each IsReceived (a.map (·.2)) ((receivedOver (f p) k (d.map (·.2))).take a.length) := by
  let Q : Nat → Nat → Prop := fun p m => ∃ (k : Nat) (a : List (Nat × Message)), ReturnedBefore (ev p) (n p) a ∧
    (EndlessSender t (ev p) (st p) → GivenBefore (ev p) (n p) a) ∧
      ∀ m', m ≤ m' → Each IsReceived (a.map (·.2)) ((receivedOver (f p) k (sr m').s.got).take a.length)
  have hmono : ∀ p i j, i ≤ j → Q p i → Q p j := fun p i j hij ⟨k, a, h1, h2, h3⟩ => ⟨k, a, h1, h2, fun m' hm => h3 m' (Nat.le_trans hij hm)⟩
  obtain ⟨m0, _, h0⟩ := common_moment Q hmono count (fun p hp => by
      obtain ⟨m, k, a, h1, h2, h3⟩ := program_received (h p hp) (hmsgs p hp) (rexec_atOnce hxr) (C102_one_worker _ _ er sr hxr hc g0 hworker) herr hc
        (fun j hj => hlinks.served p j hp hj) (hlinks.links p hp)
      exact ⟨m, k, a, h1, h2, h3⟩) 0
  obtain ⟨d, m, h3, h4⟩ := C102_returned _ _ er sr hxr hc hret m0
  refine ⟨m, d, h4, fun p hp => ?_⟩
  obtain ⟨k, a, h1, h2, h5⟩ := h0 p hp
  exact ⟨k, a, h1, h2, by rw [h3]; exact h5 m0 (Nat.le_refl _)⟩

/-! ## nothing else is received -/

theorem le_of_take_flatten {fs : List Bytes} (hne : ∀ x ∈ fs, x ≠ []) : ∀ {a b : Nat}, a ≤ fs.length → (fs.take a).flatten <+: (fs.take b).flatten → a ≤ b := by
  induction fs with
  | nil => intro a b h _; simp at h; omega
  | cons x fs ih =>
    intro a b ha h
    cases a with
    | zero => omega
    | succ a =>
      cases b with
      | zero =>
        rw [List.take_zero, List.flatten_nil, List.prefix_nil, List.take_succ_cons, List.flatten_cons, List.append_eq_nil_iff] at h
        exact absurd h.1 (hne x (by simp))
      | succ b =>
        rw [List.take_succ_cons, List.take_succ_cons, List.flatten_cons, List.flatten_cons, List.prefix_append_right_inj] at h
        have := ih (fun y hy => hne y (by simp [hy])) (by simpa using ha) h
        omega

/-- What has been received from the connections of a sender is part of what was sent. -/
theorem received_sublist {t : Transport} {Good : Message → Prop} (hcar : Carries t Good)
    (ev : Nat → Option Sender.Event) (st : Nat → Sender.State) (hx : SenderExec t ev st)
    (hcut : ∀ n, CutsBetween (frames t (past ev n)) (st n).conns) (hmsgs : ∀ n, ∀ m ∈ sent (past ev n), Good m)
    (lenQueue : Nat) (er : Nat → Option Recv.Event) (sr : Nat → Recv.State) (hxr : ReceiverExec t lenQueue er sr)
    (hc : ∀ n, (sr n).crashed = false) (f : Nat → Nat)
    (hfaithful : ∀ j, Opened st j → ∀ m, ∃ n, arrived (readsOf (f j) (past er m)) <+: connBytes j (st n))
    (M K n : Nat) (hK : K ≤ (st n).conns.length) :
    ∃ n' L, L.Sublist (sent (past ev n')) ∧ Each IsReceived L (receivedOver f K (sr M).got) := by
  have hok : ∀ k, ∀ m ∈ sent (past ev k), ∃ b, m.marshal = .ret (.ok b) := fun k m hm => hcar.ok m (hmsgs k m hm)
  obtain ⟨n1, hn1, hN⟩ := common_moment (fun j n => arrived (readsOf (f j) (past er M)) <+: connBytes j (st n))
    (fun j a b hab h => h.trans (connBytes_grows (grows_exec hx hab) j)) K (fun j hj => hfaithful j ⟨n, by omega⟩ M) n
  have hlen : K ≤ (st n1).conns.length := Nat.le_trans hK (grows_exec hx hn1).length
  have hfr := frames_sent (t := t) _ (hok n1)
  have hne : ∀ x ∈ frames t (past ev n1), x ≠ [] := by
    intro x hx
    rw [hfr] at hx
    obtain ⟨m, hm, rfl⟩ := List.mem_map.mp hx
    obtain ⟨b, hb⟩ := hok n1 m hm
    rw [frameOf, hb]
    cases t <;> simp [Transport.encode]
  have hh := Sender.history_past hx n1
  have hpre := C34_prefix t _ _ hh
  -- what was written to the first connections is a number of frames, at most all
  have hcuts : ∀ j, j < K → ∃ k, k ≤ (frames t (past ev n1)).length ∧ bytesOn ((st n1).conns.take j) = ((frames t (past ev n1)).take k).flatten := by
    intro j hj
    obtain ⟨k, hk⟩ := hcut n1 _ ((st n1).conns[j]'(by omega)) ((st n1).conns.drop (j + 1)) (by rw [List.getElem_cons_drop, List.take_append_drop])
    refine ⟨min k (frames t (past ev n1)).length, Nat.min_le_right _ _, ?_⟩
    rw [hk, ← List.take_eq_take_min]
  have key : ∀ j, j ≤ K → ∃ L, Each IsReceived L ((List.range j).flatMap fun j => ofConn (f j) (sr M).got) ∧
      (∀ k ≤ (frames t (past ev n1)).length, bytesOn ((st n1).conns.take j) = ((frames t (past ev n1)).take k).flatten →
        L.Sublist ((sent (past ev n1)).take k)) ∧ L.Sublist (sent (past ev n1)) := by
    intro j
    induction j with
    | zero => intro _; exact ⟨[], .nil, fun _ _ _ => List.nil_sublist _, List.nil_sublist _⟩
    | succ j ih =>
      intro hj
      obtain ⟨L, h1, h2, h2'⟩ := ih (by omega)
      obtain ⟨k, hk, hcutj⟩ := hcuts j (by omega)
      have h2 := h2 k hk hcutj
      have hjl : j < (st n1).conns.length := by omega
      have hcb : connBytes j (st n1) = ((st n1).conns[j]).writes.flatten := by
        unfold connBytes; rw [List.getElem?_eq_getElem hjl]; rfl
      have hsplit : (st n1).conns = (st n1).conns.take j ++ (st n1).conns[j] :: (st n1).conns.drop (j + 1) := by
        rw [List.getElem_cons_drop, List.take_append_drop]
      have harr := hN j (by omega)
      rw [hcb] at harr
      rcases Nat.lt_or_ge (f j) (sr M).conns.length with hi | hi
      case inr =>
        -- this connection has not been accepted yet
        have hnil : ofConn (f j) (sr M).got = [] := by
          unfold ofConn
          rw [List.filterMap_eq_nil_iff]
          intro x hx
          have := C44_nothing_else t lenQueue _ _ (Recv.history_past hxr M) (hc M) x hx
          rw [if_neg (by omega)]
        refine ⟨L, by rw [List.range_succ, List.flatMap_append, List.flatMap_cons, List.flatMap_nil, List.append_nil, hnil, List.append_nil]; exact h1, ?_, h2'⟩
        intro k' hk' hcut'
        rw [bytesOn_take_succ, hcutj] at hcut'
        exact h2.trans (List.take_prefix_take_left (le_of_take_flatten hne hk (by rw [← hcut']; exact List.prefix_append _ _))).sublist
      obtain ⟨q1, _⟩ := conn_received hcar _ _ hh (hmsgs n1) _ _ _ hsplit k hcutj lenQueue _ _ (Recv.history_past hxr M) (hc M) (f j) _
        (List.getElem?_eq_getElem hi) harr
      have hw := conn_carries hcar _ _ hh (hmsgs n1) _ _ _ hsplit k hcutj
      obtain ⟨b', tok', g1, g2⟩ := C44_order _ _ _ _ (Recv.history_past hxr M) (hc M) (f j) _ (List.getElem?_eq_getElem hi)
      obtain ⟨_, g4, _⟩ := hcar.back _ (fun m hm => hmsgs n1 m (List.mem_of_mem_drop hm)) _ _ _ g1 (harr.trans hw)
      rw [List.map_take, List.map_drop, ← hfr] at g4
      have hl : (ofConn (f j) (sr M).got).length ≤ tok'.out.length := by rw [← g2]; simp only [List.length_append]; omega
      have hlen' : k + (ofConn (f j) (sr M).got).length ≤ (frames t (past ev n1)).length := by
        have := each_length q1
        rw [List.length_take, List.length_drop] at this
        rw [hfr, List.length_map] at hk ⊢
        omega
      have hwritten : ((frames t (past ev n1)).take (k + (ofConn (f j) (sr M).got).length)).flatten <+: bytesOn ((st n1).conns.take (j + 1)) := by
        rw [bytesOn_take_succ, hcutj, List.take_add, List.flatten_append, List.prefix_append_right_inj, hcb]
        exact ((take_flatten_prefix _ hl).trans g4).trans harr
      refine ⟨L ++ ((sent (past ev n1)).drop k).take (ofConn (f j) (sr M).got).length, ?_, ?_, ?_⟩
      · rw [List.range_succ, List.flatMap_append, List.flatMap_cons, List.flatMap_nil, List.append_nil]
        exact h1.append q1
      · intro k' hk' hcut'
        rw [hcut'] at hwritten
        have hle := le_of_take_flatten hne hlen' hwritten
        refine List.Sublist.trans (List.Sublist.append h2 (List.Sublist.refl _)) ?_
        rw [← List.take_add]
        exact (List.take_prefix_take_left hle).sublist
      · refine List.Sublist.trans (List.Sublist.append h2 (List.Sublist.refl _)) ?_
        rw [← List.take_add]
        exact List.take_sublist _ _
  obtain ⟨L, h1, _, h2⟩ := key K (Nat.le_refl _)
  exact ⟨n1, L, h2, h1⟩

theorem ofGoroutine_sublist {α : Type} {a b : List (Nat × α)} (g : Nat) (h : a.Sublist b) : (ofGoroutine g a).Sublist (ofGoroutine g b) :=
  (h.filter _).map _

/-- **C115.** Nothing else is received: at every moment, what `Receive` has returned from the connections of a program are messages that goroutines of this
program have given to `Send`, each at most as often as it was given, with all their fields and no error. -/
theorem C115_only_partial (t : Transport) (count : Nat) (ev : Nat → Nat → Option FEvent) (st : Nat → Nat → FState)
    (h : ∀ p, p < count → FExec t (ev p) (st p)) (hwhole : ∀ p, p < count → ∀ n nb x, ev p n = some (.other (.write nb (some x))) → nb = 0)
    (hmsgs : ∀ p, p < count → ∀ i g m, ev p i = some (.call g (.send m)) → TravelsOver t m)
    (lenQueue : Nat) (er : Nat → Option REvent) (sr : Nat → RState) (hxr : RExec t lenQueue er sr) (hc : ∀ n, (sr n).s.crashed = false)
    (f : Nat → Nat → Nat) (hlinks : ServerLinks t lenQueue count (fun p n => (st p n).s) f (fun n => (er n).bind atOnce) fun n => (sr n).s)
    (p : Nat) (hp : p < count) (n K : Nat) (hK : K ≤ (st p n).s.conns.length) (M : Nat) :
    ∃ a, SomeGiven (ev p) a ∧ Each IsReceived (a.map (·.2)) (receivedOver (f p) K (sr M).s.got) := by
  have hcar := carries_travels t
  have hok : ∀ n g m, ev p n = some (.call g (.send m)) → ∃ b, m.marshal = .ret (.ok b) := fun n g m hm => hcar.ok m (hmsgs p hp n g m hm)
  obtain ⟨n', L, h1, h2⟩ := received_sublist hcar _ _ (once_exec (h p hp)) (C100_clean _ _ _ (once_exec (h p hp)) (once_clean (hwhole p hp)))
    (fun n m hm => by
      obtain ⟨k, g, hk⟩ := once_given (h p hp) hm
      exact hmsgs p hp k g m hk) lenQueue _ _ (rexec_atOnce hxr) hc (f p) (fun j hj => (hlinks.links p hp).faithful j hj) M K n hK
  obtain ⟨k1, k2⟩ := taken (h p hp) hok n'
  rw [k2, List.sublist_map_iff] at h1
  obtain ⟨a, ha, rfl⟩ := h1
  exact ⟨a, ⟨n', fun g => (ofGoroutine_sublist g ha).trans (k1 g).sublist⟩, h2⟩

/-- **C115.** The origin of every message: if all the connections of the receiver come from the programs, every message that a call of `Receive` returns was
given to `Send` by a goroutine of the program on whose connection it arrived. -/
theorem C115_origin_partial (t : Transport) (count : Nat) (ev : Nat → Nat → Option FEvent) (st : Nat → Nat → FState)
    (h : ∀ p, p < count → FExec t (ev p) (st p)) (hwhole : ∀ p, p < count → ∀ n nb x, ev p n = some (.other (.write nb (some x))) → nb = 0)
    (hmsgs : ∀ p, p < count → ∀ i g m, ev p i = some (.call g (.send m)) → TravelsOver t m)
    (lenQueue : Nat) (er : Nat → Option REvent) (sr : Nat → RState) (hxr : RExec t lenQueue er sr) (hc : ∀ n, (sr n).s.crashed = false)
    (f : Nat → Nat → Nat) (hlinks : ServerLinks t lenQueue count (fun p n => (st p n).s) f (fun n => (er n).bind atOnce) fun n => (sr n).s)
    (hall : ∀ n i, i < (sr n).s.conns.length → ∃ p j, p < count ∧ Opened (fun n => (st p n).s) j ∧ f p j = i)
    (M g : Nat) (x : Nat × Tok.Delivered) (hx : x ∈ messages (returnedTo g (sr M))) :
    ∃ p j g' i m, p < count ∧ f p j = x.1 ∧ ev p i = some (.call g' (.send m)) ∧ IsReceived m x.2 := by
  have hh := history_rpast hxr M
  obtain ⟨a, _, ha, _⟩ := C102_shared t lenQueue _ [] _ _ hh rfl
  have hgot : x ∈ (sr M).s.got := by
    rw [← ha.all]
    obtain ⟨y, hy, e⟩ := List.mem_map.mp ((ha.returned g).subset hx)
    exact List.mem_map.mpr ⟨y, (List.mem_filter.mp hy).1, e⟩
  have hlt := C44_nothing_else t lenQueue _ _ (C102_atomic t lenQueue _ _ hh) (hc M) x hgot
  obtain ⟨p, j, hp, ⟨n, hn⟩, hf⟩ := hall M x.1 hlt
  obtain ⟨b, ⟨n', hb⟩, hE⟩ := C115_only_partial t count ev st h hwhole hmsgs lenQueue er sr hxr hc f hlinks p hp n (j + 1) hn M
  have hmem : x.2 ∈ receivedOver (f p) (j + 1) (sr M).s.got := by
    unfold receivedOver ofConn
    simp only [List.mem_flatMap, List.mem_range, List.mem_filterMap]
    exact ⟨j, by omega, x, hgot, by rw [if_pos hf.symm]⟩
  obtain ⟨m, hm, hr⟩ := each_mem hE _ hmem
  obtain ⟨⟨g', m'⟩, hy, rfl⟩ := List.mem_map.mp hm
  have hgiven : m' ∈ givenBy g' (past (ev p) n') := (hb g').subset (by
    simp only [ofGoroutine, List.mem_map, List.mem_filter]
    exact ⟨(g', m'), ⟨hy, by simp⟩, rfl⟩)
  simp only [givenBy, messagesOf, List.mem_filterMap] at hgiven
  obtain ⟨o, ho, he⟩ := hgiven
  cases o with
  | endCall => cases he
  | send m'' =>
    simp only [Option.some.injEq] at he
    subst he
    obtain ⟨i, _, hi⟩ := mem_called ho
    exact ⟨p, j, g', i, _, hp, hf, hi, hr⟩

/-! ## log lines -/

theorem line_travels {t : Transport} {P : LoggingProgram} (w : P.LogsStream t) {n g : Nat} {m : Message} (hm : P.ev n = some (.call g (.send m))) : TravelsOver t m := by
  obtain ⟨cl, h1, h2⟩ := line_of_call w.new w.first w.logs hm
  have hl := w.loggable g (n + 1) cl h1
  exact ⟨fun e => ⟨says_intact w.pid h2 (hl.1 e), w.size n g m hm⟩, fun z hz => says_line w.pid h2 (hl.2 z hz)⟩

/-- **C115**, for log lines: from the programs that log to the goroutines of the server. Of a program that goes on, all the lines that its goroutines have begun
before the moment `n p` are received; of a program that ends, all the lines, when its goroutines had returned from them before it called `End`. -/
theorem C115_logged_partial (t : Transport) (count : Nat) (P : Nat → LoggingProgram) (hlogs : ∀ p, p < count → (P p).LogsStream t) (n : Nat → Nat)
    (h : ∀ p, p < count → RunsOrExits t (P p).ev (P p).st (n p))
    (hq : ∀ p, p < count → EndlessSender t (P p).ev (P p).st ∨ NoSendUnderWay (P p).ev (n p))
    (lenQueue : Nat) (er : Nat → Option REvent) (sr : Nat → RState) (hxr : RExec t lenQueue er sr)
    (hc : ∀ n, (sr n).s.crashed = false) (g0 : Nat) (hworker : Worker t lenQueue g0 er sr) (hret : ∀ g, Returns t lenQueue g er sr)
    (herr : ErrorsDrained fun n => (sr n).s) (f : Nat → Nat → Nat)
    (hlinks : ServerLinks t lenQueue count (fun p n => ((P p).st n).s) f (fun n => (er n).bind atOnce) fun n => (sr n).s) :
    ∃ m d, (∀ g, ofGoroutine g d <+: messages (returnedTo g (sr m))) ∧
      ∀ p, p < count → ∃ k a, LinesBefore (P p).prio (P p).lines (n p) a ∧
        Each (Says (P p).host (P p).pid (P p).prio (P p).app) (a.map (·.2)) ((receivedOver (f p) k (d.map (·.2))).take a.length) := by
  obtain ⟨m, d, h1, h2⟩ := C115_delivered_partial t count (fun p => (P p).ev) (fun p => (P p).st) n h (fun p hp _ _ _ hm => line_travels (hlogs p hp) hm)
    lenQueue er sr hxr hc g0 hworker hret herr f hlinks
  refine ⟨m, d, h1, fun p hp => ?_⟩
  obtain ⟨k, a, h3, h4, h5⟩ := h2 p hp
  have hg : GivenBefore (P p).ev (n p) a := by
    rcases hq p hp with he | he
    · exact h4 he
    · exact given_of_returned h3 he
  obtain ⟨n', ha⟩ := hg
  have w := hlogs p hp
  obtain ⟨b, g1, g2⟩ := lines_said w.new w.first w.logs ha
  refine ⟨k, b, g1, ?_⟩
  have hlen : b.length = a.length := by have := each_length g2; simpa using this.symm
  rw [hlen]
  exact each_trans g2 h5 (fun _ _ _ _ u v => says_received u v)

/-- **C115**, for log lines: the origin of every message. If all the connections of the receiver come from the programs, what a call of `Receive` returns says a
line of the program on whose connection it arrived: its hostname, process id, application name and priority are those of this program. -/
theorem C115_logged_origin_partial (t : Transport) (count : Nat) (P : Nat → LoggingProgram) (hlogs : ∀ p, p < count → (P p).LogsStream t)
    (h : ∀ p, p < count → FExec t (P p).ev (P p).st)
    (hwhole : ∀ p, p < count → ∀ n nb x, (P p).ev n = some (.other (.write nb (some x))) → nb = 0)
    (lenQueue : Nat) (er : Nat → Option REvent) (sr : Nat → RState) (hxr : RExec t lenQueue er sr) (hc : ∀ n, (sr n).s.crashed = false)
    (f : Nat → Nat → Nat) (hlinks : ServerLinks t lenQueue count (fun p n => ((P p).st n).s) f (fun n => (er n).bind atOnce) fun n => (sr n).s)
    (hall : ∀ n i, i < (sr n).s.conns.length → ∃ p j, p < count ∧ Opened (fun n => ((P p).st n).s) j ∧ f p j = i)
    (M g : Nat) (x : Nat × Tok.Delivered) (hx : x ∈ messages (returnedTo g (sr M))) :
    ∃ p j g' i c, p < count ∧ f p j = x.1 ∧ c ∈ (P p).lines g' i ∧ Says (P p).host (P p).pid (P p).prio (P p).app c x.2 := by
  obtain ⟨p, j, g', i, m, hp, hf, hm, hr⟩ := C115_origin_partial t count (fun p => (P p).ev) (fun p => (P p).st) h hwhole
    (fun p hp _ _ _ hm => line_travels (hlogs p hp) hm) lenQueue er sr hxr hc f hlinks hall M g x hx
  have w := hlogs p hp
  obtain ⟨cl, g1, g2⟩ := line_of_call w.new w.first w.logs hm
  exact ⟨p, j, g', i + 1, cl, hp, hf, g1, says_received g2 hr⟩

/-! ## an execution that meets the hypotheses

One program goes on for ever (its first connection fails after one message), another one ends and exits. -/

def serverPool : List REvent :=
  [.call 0 .receive, .call 1 .receive, .other .tau, .other .acceptOk, .other .tau, .other .acceptOk, .other .tau, .other .acceptOk] ++
  ([.other (.read 1 { data := demoLineLoggedFrame }), .take 0 (.direct 1), .ret 0, .call 0 .receive] ++
  ([.other (.read 2 { data := demoLineLoggedFrame }), .take 1 (.direct 2), .ret 1, .call 1 .receive] ++
  ([.other (.read 0 { data := demoLineLoggedFrame }), .take 0 (.direct 0), .ret 0, .call 0 .receive] ++
  [.other (.read 2 { data := demoLineLoggedFrame }), .take 1 (.direct 2), .ret 1, .call 1 .receive])))

/-- Between two messages, with three connections. -/
structure EaseThree (f : RState) : Prop where
  lives : f.s.crashed = false
  pipe : f.s.pipeline = []
  opened : f.s.pipelineClosed = false
  errs : f.s.errs = 0
  three : f.s.conns.length = 3
  each : ∀ c ∈ f.s.conns, AtRest c.tok ∧ c.running = true ∧ c.pending = [] ∧ c.errPending = false
  zero : f.at_ 0 = .waiting
  first : f.at_ 1 = .waiting

theorem three_round {f : RState} (h : EaseThree f) (i : Nat) (hi : i < 3) (g : Nat) (hg : g = 0 ∨ g = 1) :
    ∃ f', rrun .lfEnded 0 f [.other (.read i { data := demoLineLoggedFrame }), .take g (.direct i), .ret g, .call g .receive] = some f' ∧ EaseThree f' := by
  obtain ⟨h1, h2, h3, h4, h5, hall, k0, k1⟩ := h
  obtain ⟨c, hc⟩ : ∃ c, f.s.conns[i]? = some c := ⟨_, List.getElem?_eq_getElem (by omega)⟩
  obtain ⟨h6, h7, h8, h9⟩ := hall c (List.mem_of_getElem? hc)
  have hil : i < f.s.conns.length := by omega
  obtain ⟨b, _, hb, _⟩ := transmissible_frame demo_fits.toIntact
  obtain ⟨tok, d, g1, g2, g3, g4, g5⟩ := step_datagram h6 demo_fits (f := demoLineLoggedFrame) ⟨b, hb, by rw [← demo_frame]; simp [frameOf, hb]⟩
  have hfit : Tok.Read.Fits { data := demoLineLoggedFrame } c.tok := by
    have := h6.room
    have hl : demoLineLoggedFrame.length ≤ 500 := by rw [← demo_frame]; simpa [frameOf, hb] using demo_fits.size b hb
    simp only [Tok.Read.Fits, List.length_nil]; omega
  have hg' : f.at_ g = .waiting := by rcases hg with rfl | rfl <;> assumption
  have hd : tok.out.drop c.tok.out.length = [d] := by rw [g3]; simp
  let s1 : Recv.State := { f.s with conns := f.s.conns.set i { c with tok := tok, pending := [d], errPending := false, running := true } }
  have e1 : rstep .lfEnded 0 f (.other (.read i { data := demoLineLoggedFrame })) = some { f with s := s1 } := by
    simp [rstep, Recv.step, h1, hc, h7, h8, h9, hfit, g1, hd, State.setConn, s1]
  have hc1 : s1.conns[i]? = some { c with tok := tok, pending := [d], errPending := false, running := true } := by simp [s1, hil]
  let s2 : Recv.State := { s1 with got := f.s.got ++ [(i, d)], conns := f.s.conns.set i { c with tok := tok, pending := [], errPending := false, running := true } }
  have e2 : rstep .lfEnded 0 { f with s := s1 } (.take g (.direct i)) = some ({ f with s := s2 }.go g (.taken (some (i, d)))) := by
    simp [rstep, Recv.step, h1, hg', Way.event, h2, h3, hil, State.setConn, s1, s2]
  let f3 : RState := { (({ f with s := s2 }.go g (.taken (some (i, d)))).go g .idle) with results := f.results ++ [(g, some (i, d))] }
  have e3 : rstep .lfEnded 0 ({ f with s := s2 }.go g (.taken (some (i, d)))) (.ret g) = some f3 := by
    simp [rstep, h1, RState.go, s1, s2, f3]
  have e4 : rstep .lfEnded 0 f3 (.call g .receive) = some (f3.go g .waiting) := by
    simp [rstep, h1, RState.go, s1, s2, f3]
  refine ⟨f3.go g .waiting, ?_, ?_⟩
  · simp only [rrun, e1, e2, e3, e4, Option.bind_some]
  · refine ⟨h1, h2, h3, h4, ?_, ?_, ?_, ?_⟩
    · show (f.s.conns.set i _).length = 3
      rw [List.length_set, h5]
    · intro c' hc'
      rcases List.mem_or_eq_of_mem_set hc' with hm | rfl
      · exact hall c' hm
      · exact ⟨g2, rfl, rfl, rfl⟩
    · rcases hg with rfl | rfl
      · simp [RState.go]
      · simp [RState.go, f3, k0]
    · rcases hg with rfl | rfl
      · simp [RState.go, f3, k1]
      · simp [RState.go]

theorem serverPool_run : ∃ f, rrun .lfEnded 0 rinit serverPool = some f ∧ EaseThree f := by
  have h0 : ∃ f, rrun .lfEnded 0 rinit (serverPool.take 8) = some f ∧ EaseThree f := by
    refine ⟨_, rfl, rfl, rfl, rfl, rfl, rfl, ?_, rfl, rfl⟩
    have : ∀ c ∈ [Conn.new, Conn.new, Conn.new], AtRest c.tok ∧ c.running = true ∧ c.pending = [] ∧ c.errPending = false := by
      intro c hc
      simp only [List.mem_cons, List.not_mem_nil, or_false, or_self] at hc
      subst hc
      exact ⟨atRest_init, rfl, rfl, rfl⟩
    exact this
  obtain ⟨f0, r0, h0⟩ := h0
  obtain ⟨f1, r1, h1⟩ := three_round h0 1 (by omega) 0 (.inl rfl)
  obtain ⟨f2, r2, h2⟩ := three_round h1 2 (by omega) 1 (.inr rfl)
  obtain ⟨f3, r3, h3⟩ := three_round h2 0 (by omega) 0 (.inl rfl)
  obtain ⟨f4, r4, h4⟩ := three_round h3 2 (by omega) 1 (.inr rfl)
  refine ⟨f4, ?_, h4⟩
  rw [show serverPool = serverPool.take 8 ++ _ from rfl, rrun_append, r0, Option.bind_some, rrun_append, r1, Option.bind_some, rrun_append, r2, Option.bind_some,
    rrun_append, r3, Option.bind_some, r4]

/-- A program over datagrams is also one over the stream. -/
theorem logs_stream {P : LoggingProgram} (w : P.Logs .lfEnded) (h : ∀ g n, ∀ c ∈ P.lines g n, LoggableLine 10 c) : P.LogsStream .lfEnded where
  pid := w.pid
  new := w.new
  first := w.first
  loggable := fun g n c hc => ⟨(fun e => nomatch e), fun z hz => by cases hz; exact h g n c hc⟩
  logs := w.logs
  size := by
    intro n g m hm b hb
    have := w.size n g m hm b hb
    simp only [Transport.encode, List.length_append] at this
    omega

/-- The states of the two senders. -/
def serverStates (p : Nat) : Nat → FState := if p = 0 then flassoSt .lfEnded twoForever 38 5 else fafter .lfEnded twoExit

theorem serverPool_fair {f : RState} (hf : rrun .lfEnded 0 rinit serverPool = some f) (hat : EaseThree f) :
    RExec .lfEnded 0 (fun n => serverPool[n]?) (rfinSt .lfEnded 0 serverPool) ∧ (∀ n, (rfinSt .lfEnded 0 serverPool n).s.crashed = false) ∧
    Worker .lfEnded 0 0 (fun n => serverPool[n]?) (rfinSt .lfEnded 0 serverPool) ∧
    (∀ g, Returns .lfEnded 0 g (fun n => serverPool[n]?) (rfinSt .lfEnded 0 serverPool)) ∧
    ErrorsDrained (fun n => (rfinSt .lfEnded 0 serverPool n).s) ∧
    ∀ i, Served .lfEnded 0 i (fun n => (serverPool[n]?).bind atOnce) fun n => (rfinSt .lfEnded 0 serverPool n).s := by
  obtain ⟨r1, r2, r3, r4, r5, r6⟩ := rpool_fair hf hat.lives hat.pipe hat.opened hat.errs (fun c hc => (hat.each c hc).2.2) (by
    intro g
    match g with
    | 0 => exact Or.inl hat.zero
    | 1 => exact Or.inl hat.first
    | g + 2 =>
      right
      refine untouched hf rfl ?_
      intro e he
      simp only [serverPool, List.mem_append, List.mem_cons, List.not_mem_nil, or_false] at he
      rcases he with he | he | he | he | he <;> rcases he with rfl | rfl | rfl | rfl | rfl | rfl | rfl | rfl <;> simp [isReceiverOf]) (by
    intro g h
    simp [serverPool] at h)
  exact ⟨r1, r2, r3 0 hat.zero, r4, r5, r6⟩

theorem serverPool_links {f : RState} (hf : rrun .lfEnded 0 rinit serverPool = some f) (hat : EaseThree f)
    (r6 : ∀ i, Served .lfEnded 0 i (fun n => (serverPool[n]?).bind atOnce) fun n => (rfinSt .lfEnded 0 serverPool n).s) :
    ServerLinks .lfEnded 0 2 (fun p n => (serverStates p n).s) (fun p j => 2 * p + j) (fun n => (serverPool[n]?).bind atOnce)
      fun n => (rfinSt .lfEnded 0 serverPool n).s := by
  have hpast := past_atOnce serverPool
  have harr0 : arrived (readsOf 0 (serverPool.filterMap atOnce)) = demoLineLoggedFrame := by decide +kernel
  have harr1 : arrived (readsOf 1 (serverPool.filterMap atOnce)) = demoLineLoggedFrame := by decide +kernel
  have harr2 : arrived (readsOf 2 (serverPool.filterMap atOnce)) = demoLineLoggedFrame ++ demoLineLoggedFrame := by decide +kernel
  have hopened : ∀ j, Opened (fun n => (fafter .lfEnded twoExit n).s) j → j = 0 := by
    rintro j ⟨n, hn⟩
    simp only [twoExit_after n, (twoExit_conns (min n 30) (by omega)).1] at hn
    split at hn <;> omega
  have hbytes : ∀ n, connBytes 0 (fafter .lfEnded twoExit n).s <+: demoLineLoggedFrame ++ demoLineLoggedFrame := by
    intro n
    rw [twoExit_after, (twoExit_conns (min n 30) (by omega)).2]
    obtain ⟨r, hr⟩ := twoExit_some (min n 30)
    have := congrArg List.flatten hr
    rw [List.flatten_append] at this
    refine ⟨r.flatten, this.trans ?_⟩
    simp
  have h29 : connBytes 0 (fafter .lfEnded twoExit 29).s = demoLineLoggedFrame ++ demoLineLoggedFrame := by
    rw [(twoExit_conns 29 (by omega)).2, twoExit_packets 29 (by omega)]; simp
  have hop : ∀ p j, p < 2 → Opened (fun n => (serverStates p n).s) j → p = 0 ∧ (j = 0 ∨ j = 1) ∨ p = 1 ∧ j = 0 := by
    intro p j hp hj
    match p with
    | 0 => exact .inl ⟨rfl, twoForever_opened j hj⟩
    | 1 => exact .inr ⟨rfl, hopened j hj⟩
  refine ⟨?_, ?_, ?_⟩
  · intro p j p' j' hp hp' hj hj' h
    have h1 := hop p j hp hj
    have h2 := hop p' j' hp' hj'
    change 2 * p + j = 2 * p' + j' at h
    omega
  · intro p hp
    match p with
    | 0 =>
      rw [show (fun j => 2 * 0 + j) = id from by funext j; simp]
      refine twoForever_links (es := serverPool.filterMap atOnce) (N := 24) (fun m => ?_) ?_ harr0 harr1
      · rw [hpast]
        conv => rhs; rw [← List.take_append_drop m serverPool, List.filterMap_append]
        exact List.prefix_append _ _
      · rw [hpast]; rfl
    | 1 =>
      refine ⟨?_, ?_⟩
      · intro j hj m
        rw [hopened j hj]
        refine ⟨29, ?_⟩
        show arrived (readsOf 2 _) <+: connBytes 0 (fafter .lfEnded twoExit 29).s
        rw [h29, hpast, ← harr2]
        conv => rhs; rw [← List.take_append_drop m serverPool, List.filterMap_append, Recv.readsOf_append]
        simp only [arrived, List.flatMap_append]
        exact List.prefix_append _ _
      · intro j hj n
        rw [hopened j hj]
        refine ⟨24, ?_⟩
        show _ <+: arrived (readsOf 2 _)
        rw [hpast, List.take_of_length_le (by decide), harr2]
        exact hbytes n
  · intro p j hp hj
    refine ⟨r6 _, 24, ?_⟩
    show 2 * p + j < _
    rw [rfin_end hf (by decide), hat.three]
    have := hop p j hp hj
    omega

/-- All the hypotheses of `C115_logged_partial` (and with it of `C115_delivered_partial`) are met. -/
example : ∃ m d, (∀ g, ofGoroutine g d <+: messages (returnedTo g (rfinSt .lfEnded 0 serverPool m))) ∧
    ∀ p, p < 2 → ∃ k a, demoLineLog.take 1 <+: ofGoroutine 1 a ∧ demoLineLog.take 1 <+: ofGoroutine 2 a ∧
      Each (Says (some b!"host") 42 166 b!"app") (a.map (·.2)) ((receivedOver (fun j => 2 * p + j) k (d.map (·.2))).take a.length) := by
  obtain ⟨f, hf, hat⟩ := serverPool_run
  obtain ⟨r1, r2, r3, r4, r5, r6⟩ := serverPool_fair hf hat
  obtain ⟨P0, w0, a1, a2, a3, a4, a5, a6, a7⟩ := demo_works
  obtain ⟨P1, w1, e1, e2, e3, e4, e5, e6, e7, e8⟩ := exit_logs
  let P : Nat → LoggingProgram := fun p => if p = 0 then P0 else P1
  have hst : (fun p n => ((P p).st n).s) = fun p n => (serverStates p n).s := by
    funext p n
    by_cases h : p = 0
    · subst h; show (P0.st n).s = _; rw [a2]; rfl
    · show ((if p = 0 then P0 else P1).st n).s = ((if p = 0 then _ else _ : Nat → FState) n).s
      rw [if_neg h, if_neg h, e2]
  have hlinks := serverPool_links hf hat r6
  rw [← hst] at hlinks
  have hlines : ∀ p g n, (P p).lines g n = twoProgs g n := by
    intro p g n
    by_cases h : p = 0 <;> simp [P, h, a3, e3]
  obtain ⟨m, d, g1, g2⟩ := C115_logged_partial .lfEnded 2 P (by
      intro p hp
      match p with
      | 0 => exact logs_stream w0.toLogs (by rw [show (P 0) = P0 from rfl, a3, ← e3]; exact e8)
      | 1 => exact logs_stream w1 e8) (fun _ => 12) (by
      intro p hp
      match p with
      | 0 => exact .inl w0.endless
      | 1 => exact .inr ⟨29, by rw [show (P 1) = P1 from rfl, e1, e2]; exact twoExit_ends⟩) (by
      intro p hp
      match p with
      | 0 => exact .inl w0.endless
      | 1 => exact .inr (by rw [show (P 1) = P1 from rfl, e1]; exact twoExit_quiet))
    0 (fun n => serverPool[n]?) (rfinSt .lfEnded 0 serverPool) r1 r2 0 r3 r4 r5 (fun p j => 2 * p + j) hlinks
  refine ⟨m, d, g1, fun p hp => ?_⟩
  obtain ⟨k, a, ⟨n', ha⟩, g3⟩ := g2 p hp
  have i1 : (P p).host = some b!"host" := by by_cases h : p = 0 <;> simp [P, h, a4, e4]
  have i2 : (P p).pid = 42 := by by_cases h : p = 0 <;> simp [P, h, a5, e5]
  have i3 : (P p).prio = 166 := by by_cases h : p = 0 <;> simp [P, h, a6, e6]
  have i4 : (P p).app = b!"app" := by by_cases h : p = 0 <;> simp [P, h, a7, e7]
  rw [i1, i2, i3, i4] at g3
  have hp : passing 166 (demoLineLog.take 1) = demoLineLog.take 1 := by with_unfolding_all rfl
  have k1 := (ha 1).1
  have k2 := (ha 2).1
  rw [i3, hlines, show twoProgs 1 12 = demoLineLog.take 1 from rfl, hp] at k1
  rw [i3, hlines, show twoProgs 2 12 = demoLineLog.take 1 from rfl, hp] at k2
  exact ⟨k, a, k1, k2, g3⟩

end Syslog5424
