import Verif.Props.CutCost
import Verif.Props.LoggedEventually
/-! # Property C117: log lines, and what a write that fails inside a frame costs -/
namespace Syslog5424
open Spec

/-- No digit is a closing bracket. -/
theorem digit_not_bracket {d : UInt8} (h : Spec.IsDigit d) : d ≠ 93 := by
  rintro rfl; exact absurd h (by decide)

/-- No timestamp has a closing bracket. -/
theorem format_no_bracket (t : Time) : (93 : UInt8) ∉ t.format := by
  intro hd
  have hp : ∀ w x, (93 : UInt8) ∉ Time.padNat w x := fun w x h => digit_not_bracket (Time.padNat_digits w x _ h) rfl
  unfold Time.format at hd
  simp only [List.mem_append, List.mem_cons, List.not_mem_nil, or_false] at hd
  rcases hd with (((((((((((hd | hd) | hd) | hd) | hd) | hd) | hd) | hd) | hd) | hd) | hd) | hd) | hd
  · unfold Time.padInt at hd
    split at hd
    · rcases List.mem_cons.mp hd with hd | hd
      · exact absurd hd (by decide)
      · exact hp _ _ hd
    · exact hp _ _ hd
  · exact absurd hd (by decide)
  · exact hp _ _ hd
  · exact absurd hd (by decide)
  · exact hp _ _ hd
  · exact absurd hd (by decide)
  · exact hp _ _ hd
  · exact absurd hd (by decide)
  · exact hp _ _ hd
  · exact absurd hd (by decide)
  · exact hp _ _ hd
  · rcases Time.fmtFrac_digits _ _ hd with h | h
    · exact absurd h (by decide)
    · exact digit_not_bracket h rfl
  · unfold Time.fmtZone at hd
    split at hd
    · exact absurd hd (by decide)
    · simp only [List.mem_cons, List.mem_append, List.not_mem_nil, or_false] at hd
      rcases hd with hd | (hd | hd) | hd
      · split at hd <;> exact absurd hd (by decide)
      · exact hp _ _ hd
      · exact absurd hd (by decide)
      · exact hp _ _ hd

/-- No byte is a closing bracket that was none before. -/
theorem sanitised_no_bracket {n : Nat} {x y : Bytes} (h : IsSanitised n x y) (hx : (93 : UInt8) ∉ x) : (93 : UInt8) ∉ y := by
  by_cases he : x = []
  · rw [h.1 he]; decide
  · obtain ⟨h1, h2⟩ := h.2 he
    intro hm
    obtain ⟨i, hi, e⟩ := List.mem_iff_getElem.mp hm
    have hxi : i < x.length := by omega
    obtain ⟨g1, g2⟩ := h2 i hxi hi
    by_cases hp : IsPrintUsAscii x[i]
    · exact hx (by rw [← e, g1 hp]; exact List.getElem_mem hxi)
    · rw [g2 hp] at e; exact absurd e (by decide)

theorem appPath_no_bracket {app : Bytes} (happ : (93 : UInt8) ∉ app) : ∀ {ns : List Bytes} {r : Bytes}, AppPath app ns r → (∀ n ∈ ns, (93 : UInt8) ∉ n) → (93 : UInt8) ∉ r := by
  intro ns r h
  induction h with
  | base h => intro _; exact sanitised_no_bracket h happ
  | step _ h ih =>
    intro hn
    have h1 := ih fun n hm => hn n (List.mem_append.mpr (Or.inl hm))
    have h2 := hn _ (List.mem_append.mpr (Or.inr (List.mem_singleton.mpr rfl)))
    refine sanitised_no_bracket h ?_
    split
    · exact h2
    · intro hm
      rcases List.mem_append.mp hm with hm | hm
      · rcases List.mem_append.mp hm with hm | hm
        · exact h1 hm
        · exact absurd hm (by decide)
      · exact h2 hm

/-- The message of a line without closing brackets has none. -/
theorem says_no_bracket {host : Option Bytes} {pid : Nat} {p : Int} {app : Bytes} {c : LogCall} {m : Message} (hpid : pid < 2 ^ 63)
    (h : SaysMessage host pid p app c m) (hhost : ∀ x, host = some x → (93 : UInt8) ∉ x) (happ : (93 : UInt8) ∉ app) (hc : Unbracketed c)
    (b : Bytes) (hb : m.marshal = .ret (.ok b)) : (93 : UInt8) ∉ b := by
  have hg := says_good hpid h
  have hsd : m.sd = [] := by rw [h.sd]; rcases hc.sd with e | e <;> rw [e] <;> rfl
  rw [marshal_eq m b!"-" (by rw [hsd]; rfl)] at hb
  simp only [Out.ret.injEq, Except.ok.injEq] at hb
  subst hb
  have e1 : (93 : UInt8) ∉ m.hostname := sanitised_no_bracket h.hostname (by
    cases hh : host with
    | none => decide
    | some x => exact hhost x hh)
  have e2 : (93 : UInt8) ∉ m.appname := appPath_no_bracket happ h.appname hc.names
  have e3 : (93 : UInt8) ∉ m.procid := by rw [h.procid]; exact natDec_not_mem _ (by decide)
  have e4 : (93 : UInt8) ∉ m.msgid := by
    have := h.msgid
    cases hid : c.id with
    | none => rw [hid] at this; rw [this]; decide
    | some x => rw [hid] at this; exact sanitised_no_bracket this (hc.id x hid)
  have e5 : (93 : UInt8) ∉ m.message := by
    obtain ⟨⟨ws, _, e⟩, _⟩ := h.message
    intro hm
    exact hc.text (by rw [e]; exact List.mem_append.mpr (Or.inl hm))
  have hpri : (93 : UInt8) ∉ Priority.marshal m.prio := by
    obtain ⟨ds, hd, he⟩ := C01_marshal_format m.prio hg.prio.1 hg.prio.2
    rw [he]
    intro hm
    simp only [List.mem_append, List.mem_cons, List.not_mem_nil, or_false] at hm
    rcases hm with (hm | hm) | hm | hm
    · exact absurd hm (by decide)
    · exact digit_not_bracket (hd.2.1 _ hm) rfl
    · exact absurd hm (by decide)
    · exact absurd hm (by decide)
  have e6 := format_no_bracket m.timestamp
  intro hm
  split at hm
  · simp [headerText, wireFields, hpri, e1, e2, e3, e4, e6] at hm
  · simp [headerText, wireFields, hpri, e1, e2, e3, e4, e5, e6] at hm
    exact absurd hm (by decide)

theorem each_drop {α β : Type} {R : α → β → Prop} {as : List α} {bs : List β} (h : Each R as bs) (k : Nat) : Each R (as.drop k) (bs.drop k) := by
  induction h generalizing k with
  | nil => simp; exact .nil
  | cons hr h ih =>
    cases k with
    | zero => exact .cons hr h
    | succ k => exact ih k

/-- **C117**, for a program that logs: each write that fails inside a frame costs at most two log lines (LF and NUL transports). Neither the host name nor the name of
the program nor a line has a closing bracket, and no line has structured data. What is returned by `Receive`, from each connection `j`, is what the lines number `s j` to
`s j + d j` of those that pass the threshold say, in order, each once; these stretches do not overlap; at most two lines, of those whose frames were written, are
missing for each connection but the first. The connections that begin inside a frame and carry two whole frames behind it begin with seven words, as in `C117_two_per_cut`. -/
theorem C117_logged (t : Transport) (z : UInt8) (ht : t = .lfEnded ∧ z = 10 ∨ t = .zeroEnded ∧ z = 0)
    (host : Option Bytes) (pid out : Nat) (p : Int) (app : Bytes) (hpid : pid < 2 ^ 63) (s0 : Syslog)
    (h0 : Syslog.new host pid out p app = some s0) (lines : Nat → List LogCall) (hlines : ∀ n, ∀ c ∈ lines n, LoggableLine z c)
    (hhost : ∀ x, host = some x → (93 : UInt8) ∉ x) (happ : (93 : UInt8) ∉ app) (hbr : ∀ n, ∀ c ∈ lines n, Unbracketed c)
    (ev : Nat → Option Sender.Event) (st : Nat → Sender.State) (hlog : LoggedBy s0 out lines ev) (hx : SenderExec t ev st) (n : Nat)
    (hwords : ∀ j < (st n).conns.length, ∀ k, (((frames t (past ev n)).take k).flatten).length < (bytesOn ((st n).conns.take j)).length →
      (bytesOn ((st n).conns.take j)).length < (((frames t (past ev n)).take (k + 1)).flatten).length →
      (((frames t (past ev n)).take (k + 3)).flatten).length ≤ (bytesOn ((st n).conns.take (j + 1))).length → SevenWords z (connBytes j (st n)))
    (lenQueue : Nat) (er : Nat → Option Recv.Event) (sr : Nat → Recv.State)
    (hxr : ReceiverExec t lenQueue er sr) (hcons : Consumed t lenQueue er sr) (herr : ErrorsDrained sr) (hc : ∀ n, (sr n).crashed = false)
    (f : Nat → Nat) (hserve : ∀ j < (st n).conns.length, Served t lenQueue (f j) er sr)
    (hopen : ∀ j < (st n).conns.length, ∃ n, f j < (sr n).conns.length)
    (hfaithful : ∀ j < (st n).conns.length, ∀ m, ∃ n, arrived (readsOf (f j) (past er m)) <+: connBytes j (st n))
    (hlive : ∀ j < (st n).conns.length, ∃ m, connBytes j (st n) <+: arrived (readsOf (f j) (past er m))) :
    ∃ (m : Nat) (s d x : Nat → Nat),
      (∀ j < (st n).conns.length, s j + d j ≤ (passing p (lines n)).length ∧
        Each (Says host pid p app) (((passing p (lines n)).drop (s j)).take (d j)) (((ofConn (f j) (sr m).got).drop (x j)).take (d j))) ∧
      (∀ j j', j < j' → j' < (st n).conns.length → d j ≠ 0 → d j' ≠ 0 → s j + d j ≤ s j') ∧
      ∀ missing : List Nat, missing.Nodup → (∀ a ∈ missing, a < (passing p (lines n)).length ∧
          (((frames t (past ev n)).take (a + 1)).flatten).length ≤ (wire (st n)).length ∧ ¬ ∃ j < (st n).conns.length, s j ≤ a ∧ a < s j + d j) →
        missing.length ≤ 2 * ((st n).conns.length - 1) := by
  have hsays : ∀ n, Each (SaysMessage host pid p app) (passing p (lines n)) (sent (past ev n)) := fun n => by
    obtain ⟨s1, h1⟩ := hlog n; exact logged_says h0 h1
  have htr : ∀ n, ∀ m ∈ sent (past ev n), TransmissibleLine z m := by
    intro n m hm
    obtain ⟨cl, h2, h3⟩ := each_mem (hsays n) m hm
    exact says_line hpid h3 (hlines n cl (List.mem_filter.mp h2).1)
  have hno : ∀ n, ∀ m ∈ sent (past ev n), ∀ b, m.marshal = .ret (.ok b) → (93 : UInt8) ∉ b := by
    intro n m hm b hb
    obtain ⟨cl, h2, h3⟩ := each_mem (hsays n) m hm
    exact says_no_bracket hpid h3 hhost happ (hbr n cl (List.mem_filter.mp h2).1) b hb
  obtain ⟨m, s, d, x, h1, h2, _, h4⟩ := C117_two_per_cut t z ht ev st hx htr hno n hwords lenQueue er sr hxr hcons herr hc f hserve hopen hfaithful hlive
  have hl := each_length (hsays n)
  refine ⟨m, s, d, x, fun j hj => ⟨by rw [← hl]; exact (h1 j hj).1, ?_⟩, h2, by rw [← hl]; exact h4⟩
  exact each_trans (each_take (each_drop (hsays n) (s j)) (d j)) (h1 j hj).2 (fun _ _ _ _ a b => says_received a b)

/-! An example: the program of C73 logs three lines; the first connection of its sender fails inside the first message. -/

/-- The lines. -/
def cutLoggedLines : List LogCall := demoLineLog ++ demoLineLog.take 1

/-- The sender. -/
def cutLogged : List Sender.Event :=
  [.send demoLineLogged, .tick, .tau, .connect none, .tau, .tau, .write 20 (some (.other 0)), .tau, .tau,
   .tick, .tau, .connect none, .tau, .tau, .write 41 none, .tau, .tau, .tau, .recvErr (.write 0),
   .send demoLineLogged, .tick, .tau, .tau, .tau, .write 61 none, .tau, .tau, .tau,
   .send demoLineLogged, .tick, .tau, .tau, .tau, .write 61 none, .tau, .tau, .tau, .tick, .tau, .tau, .tau, .tau]

/-- Its receiver. -/
def cutLoggedReceived : List Recv.Event :=
  [.tau, .acceptOk, .read 0 { data := demoLineLoggedFrame.take 20 }, .tau, .acceptOk, .read 1 { data := demoLineLoggedFrame.drop 20 },
   .read 1 { data := demoLineLoggedFrame }, .handoff 1, .handoff 1, .read 1 { data := demoLineLoggedFrame }, .handoff 1]

theorem cutLogged_steps : ∀ i, i < 42 → (match cutLogged[i]? with | some e => Sender.step .lfEnded (after .lfEnded cutLogged i) e | none => some (after .lfEnded cutLogged i)) =
      some (after .lfEnded cutLogged (if i + 1 = 42 then 37 else i + 1)) := by decide +kernel

theorem cutLoggedReceived_run : ∃ q, Recv.run .lfEnded 0 Recv.init cutLoggedReceived = some q ∧ q.crashed = false ∧ q.pipeline = [] ∧ q.errs = 0 ∧
    q.conns.length = 2 ∧ (∀ c ∈ q.conns, c.pending = [] ∧ c.errPending = false) := by
  have h : (match Recv.run .lfEnded 0 Recv.init cutLoggedReceived with
      | some q => !q.crashed && q.pipeline.isEmpty && decide (q.errs = 0) && decide (q.conns.length = 2) &&
        (q.conns.all fun c => c.pending.isEmpty && !c.errPending)
      | none => false) = true := by decide +kernel
  cases hq : Recv.run .lfEnded 0 Recv.init cutLoggedReceived with
  | none => rw [hq] at h; cases h
  | some q =>
    rw [hq] at h
    simp only [Bool.and_eq_true, Bool.not_eq_true', List.isEmpty_iff, decide_eq_true_eq, List.all_eq_true] at h
    exact ⟨q, rfl, h.1.1.1.1, h.1.1.1.2, h.1.1.2, h.1.2, h.2⟩

theorem cutLogged_past : ∀ m, past (fun n => cutLoggedReceived[n]?) m = cutLoggedReceived.take m := by
  intro m
  induction m with
  | zero => rfl
  | succ m ih => rw [past_succ, ih, List.take_add_one]

/-- How many messages were sent. -/
theorem cutLogged_sent (n : Nat) : sent (past (lassoEv cutLogged 37 5) n) =
    List.replicate (if n = 0 then 0 else if n ≤ 19 then 1 else if n ≤ 28 then 2 else 3) demoLineLogged := by
  induction n with
  | zero => rfl
  | succ n ih =>
    rw [past_succ, sent_append, ih]
    have hi' := (lasso_succ 37 5 n (by omega)).1
    have hno : ∀ i, i < 42 → (decide (i = 0 ∨ i = 19 ∨ i = 28) || match cutLogged[i]? with | some (Sender.Event.send _) => false | _ => true) = true := by
      decide +kernel
    have hall : ∀ i, i < 42 → sent (cutLogged[i]?).toList = (if i = 0 ∨ i = 19 ∨ i = 28 then [demoLineLogged] else []) := by
      intro i hi
      split
      · next h => rcases h with rfl | rfl | rfl <;> rfl
      · next h =>
        have := hno i hi
        rw [decide_eq_false h, Bool.false_or] at this
        cases he : cutLogged[i]? with
        | none => rfl
        | some e => rw [he] at this; cases e <;> first | rfl | cases this
    have hl : lasso 37 5 n = n ∧ n < 37 ∨ 37 ≤ lasso 37 5 n ∧ 37 ≤ n := by unfold lasso; split <;> omega
    have hrep : ∀ k, List.replicate k demoLineLogged ++ [demoLineLogged] = List.replicate (k + 1) demoLineLogged := fun k => List.replicate_succ'.symm
    unfold lassoEv
    rw [hall _ hi']
    rcases hl with ⟨h1, h2⟩ | ⟨h1, h2⟩
    · rw [h1]
      by_cases h : n = 0 ∨ n = 19 ∨ n = 28
      · rw [if_pos h, hrep]
        rcases h with rfl | rfl | rfl <;> rfl
      · rw [if_neg h, List.append_nil]
        congr 1
        simp only [if_neg (show n ≠ 0 by omega), if_neg (show n + 1 ≠ 0 by omega)]
        by_cases h3 : n ≤ 19
        · rw [if_pos h3, if_pos (by omega)]
        · rw [if_neg h3, if_neg (show ¬ n + 1 ≤ 19 by omega)]
          by_cases h4 : n ≤ 28
          · rw [if_pos h4, if_pos (by omega)]
          · rw [if_neg h4, if_neg (by omega)]
    · rw [if_neg (show ¬ (lasso 37 5 n = 0 ∨ lasso 37 5 n = 19 ∨ lasso 37 5 n = 28) by omega), List.append_nil, if_neg (by omega), if_neg (by omega),
        if_neg (by omega), if_neg (by omega), if_neg (by omega), if_neg (by omega)]

theorem sevenLogged : SevenWords 10 (demoLineLoggedFrame.drop 20 ++ demoLineLoggedFrame) :=
  ⟨[b!":14:15.003-07:00", b!"host", b!"app", b!"42", b!"-", b!"-"], b!"written\n<160>1", demoLineLoggedFrame.drop 7,
    rfl, by decide, by decide +kernel, by decide, Or.inr ⟨by decide, by decide +kernel⟩⟩

theorem cutLogged_lines : ∀ c ∈ cutLoggedLines, LoggableLine 10 c ∧ Unbracketed c := by
  intro c hc
  have hc' : c ∈ demoLineLog := by
    rcases List.mem_append.mp hc with h | h
    · exact h
    · exact List.mem_of_mem_take h
  refine ⟨demoLineLog_loggable c hc', ?_⟩
  simp only [demoLineLog, List.mem_cons, List.not_mem_nil, or_false] at hc'
  rcases hc' with rfl | rfl
  · exact ⟨(fun n h => by cases h), (fun x h => by cases h), by decide, Or.inl rfl⟩
  · exact ⟨(fun n h => by cases h), (fun x h => by cases h), by decide, Or.inr rfl⟩

/-- The hypotheses of `C117_logged`: three lines, of which the first is cut, two connections. -/
example : ∃ s0 lines ev st er sr, Syslog.new (some b!"host") 42 3 166 b!"app" = some s0 ∧ LoggedBy s0 3 lines ev ∧
    (∀ n, ∀ c ∈ lines n, LoggableLine 10 c ∧ Unbracketed c) ∧ (passing 166 (lines 37)).length = 3 ∧
    SenderExec .lfEnded ev st ∧ (st 37).conns.length = 2 ∧
    CutInside (frames .lfEnded (past ev 37)) (st 37).conns 0 ∧ ((frames .lfEnded (past ev 37)).flatten).length = (wire (st 37)).length ∧
    (∀ j < (st 37).conns.length, ∀ k, (((frames .lfEnded (past ev 37)).take k).flatten).length < (bytesOn ((st 37).conns.take j)).length →
      (bytesOn ((st 37).conns.take j)).length < (((frames .lfEnded (past ev 37)).take (k + 1)).flatten).length →
      (((frames .lfEnded (past ev 37)).take (k + 3)).flatten).length ≤ (bytesOn ((st 37).conns.take (j + 1))).length → SevenWords 10 (connBytes j (st 37))) ∧
    ReceiverExec .lfEnded 0 er sr ∧ Consumed .lfEnded 0 er sr ∧ ErrorsDrained sr ∧ (∀ n, (sr n).crashed = false) ∧
    (∀ j < (st 37).conns.length, Served .lfEnded 0 j er sr) ∧ (∀ j < (st 37).conns.length, ∃ n, j < (sr n).conns.length) ∧
    (∀ j < (st 37).conns.length, ∀ m, ∃ n, arrived (readsOf j (past er m)) <+: connBytes j (st n)) ∧
    (∀ j < (st 37).conns.length, ∃ m, connBytes j (st 37) <+: arrived (readsOf j (past er m))) := by
  obtain ⟨q, hq, h1, h2, h3, h4, h5⟩ := cutLoggedReceived_run
  have h2' : (lassoSt .lfEnded cutLogged 37 5 37).conns.length = 2 := by decide +kernel
  have ha : ∀ j < 2, arrived (readsOf j cutLoggedReceived) = connBytes j (lassoSt .lfEnded cutLogged 37 5 37) := by decide +kernel
  have hb : connBytes 1 (lassoSt .lfEnded cutLogged 37 5 37) = (demoLineLoggedFrame.drop 20 ++ demoLineLoggedFrame) ++ demoLineLoggedFrame := by decide +kernel
  refine ⟨(Syslog.new (some b!"host") 42 3 166 b!"app").get rfl,
    fun n => cutLoggedLines.take (if n = 0 then 0 else if n ≤ 19 then 1 else if n ≤ 28 then 2 else 3),
    lassoEv cutLogged 37 5, lassoSt .lfEnded cutLogged 37 5, fun n => cutLoggedReceived[n]?, Recv.finSt .lfEnded 0 cutLoggedReceived, rfl, ?_,
    fun n c hc => cutLogged_lines c (List.mem_of_mem_take hc), by decide +kernel,
    lasso_exec _ _ 37 5 (by omega) cutLogged_steps, h2', ⟨1, by decide +kernel⟩, by decide +kernel, ?_,
    Recv.fin_exec hq, (Recv.fin_fair hq h2 (by rw [h3]; decide) h5 1).1, (Recv.fin_fair hq h2 (by rw [h3]; decide) h5 1).2.1, Recv.fin_alive hq h1,
    fun j _ => (Recv.fin_fair hq h2 (by rw [h3]; decide) h5 j).2.2, fun j hj => ⟨11, ?_⟩, fun j hj m => ⟨37, ?_⟩, fun j hj => ⟨11, ?_⟩⟩
  · intro n
    rw [cutLogged_sent]
    show ∃ s1, logAll _ (cutLoggedLines.take (if n = 0 then 0 else if n ≤ 19 then 1 else if n ≤ 28 then 2 else 3)) = _
    split
    · exact ⟨_, rfl⟩
    · split
      · exact ⟨{ (Syslog.new (some b!"host") 42 3 166 b!"app").get rfl with channels := ((Syslog.new (some b!"host") 42 3 166 b!"app").get rfl).table }, by with_unfolding_all rfl⟩
      · split
        · exact ⟨{ (Syslog.new (some b!"host") 42 3 166 b!"app").get rfl with channels := ((Syslog.new (some b!"host") 42 3 166 b!"app").get rfl).table }, by with_unfolding_all rfl⟩
        · exact ⟨{ (Syslog.new (some b!"host") 42 3 166 b!"app").get rfl with channels := ((Syslog.new (some b!"host") 42 3 166 b!"app").get rfl).table }, by with_unfolding_all rfl⟩
  · intro j hj k h _ _
    rw [h2'] at hj
    match j, hj with
    | 0, _ => exact absurd h (by simp [bytesOn])
    | 1, _ => rw [hb]; exact SevenWords.more sevenLogged _
  · rw [Recv.fin_end hq (by decide), h4, ← h2']; exact hj
  · rw [h2'] at hj
    obtain ⟨r, hr⟩ := List.take_prefix m cutLoggedReceived
    rw [← ha j hj, cutLogged_past]
    conv => rhs; rw [← hr, Recv.readsOf_append]
    simp only [arrived, List.flatMap_append]
    exact List.prefix_append _ _
  · rw [h2'] at hj
    rw [cutLogged_past, List.take_of_length_le (by decide), ha j hj]
    exact List.prefix_refl _

end Syslog5424
