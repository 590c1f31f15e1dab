import Verif.Spec.Logging
import Verif.Props.Syslog
import Verif.Props.EndToEndLines
/-! # C73: from `Log` to `Receive` -/
namespace Syslog5424
open Spec

/-- The channel of severity `i` of a new `Syslog`. -/
def freshChannel (s0 : Syslog) (i : Int) : Channel :=
  if i ≤ s0.minSev then .tru ⟨Priority.or s0.facility i, s0.hostname, s0.pid, s0.appname, b!"-", s0.output⟩ else .devNull

/-- `s` is the new `Syslog` `s0`, possibly with its table of channels. -/
def Fresh (s0 s : Syslog) : Prop :=
  s0.channels = none ∧ (s = s0 ∨ ∃ l, s0.table = some l ∧ s = { s0 with channels := some l })

theorem fresh_channel {s0 s : Syslog} (h : Fresh s0 s) (hm : 0 ≤ s0.minSev ∧ s0.minSev ≤ 7) (sev : Int) :
    ∃ s', s.channel sev = .ret (s', freshChannel s0 (Priority.severity sev)) ∧ Fresh s0 s' := by
  obtain ⟨hn, h⟩ := h
  obtain ⟨l, h1, h2, h3⟩ := fill_eq s0 s0.appname (s0.minSev + 1).toNat (by omega)
  have ht : s0.table = some l := by unfold Syslog.table; rw [hn]; exact h1
  have hst : s.table = some l := by
    rcases h with rfl | ⟨l', h', rfl⟩
    · exact ht
    · rw [ht] at h'
      simp only [Option.some.injEq] at h'
      subst h'
      rfl
  have hr := sev_range sev
  have e := h3 (Priority.severity sev).toNat (by omega)
  refine ⟨{ s0 with channels := some l }, ?_, hn, .inr ⟨l, ht, rfl⟩⟩
  unfold Syslog.channel
  rw [hst]
  simp only
  rw [if_pos hr.1, e]
  have hs : ({ s with channels := some l } : Syslog) = { s0 with channels := some l } := by
    rcases h with rfl | ⟨_, _, rfl⟩ <;> rfl
  simp only [hs, Out.ret.injEq, Prod.mk.injEq, true_and]
  unfold freshChannel
  by_cases hc : Priority.severity sev ≤ s0.minSev
  · rw [if_pos hc, if_pos (by omega), Int.toNat_of_nonneg hr.1]
  · rw [if_neg hc, if_neg (by omega)]

theorem names_devNull (ns : List Bytes) : ns.foldl Channel.appName .devNull = .devNull := by
  induction ns with
  | nil => rfl
  | cons n ns ih => exact ih

theorem foldl_snoc_ind {α β : Type} {f : β → α → β} {P : List α → β → Prop} {b : β} (h0 : P [] b)
    (hs : ∀ as a b, P as b → P (as ++ [a]) (f b a)) (as : List α) : P as (as.foldl f b) := by
  have : ∀ (as pre : List α) (b : β), P pre b → P (pre ++ as) (as.foldl f b) := by
    intro as
    induction as with
    | nil => intro pre b h; simpa using h
    | cons a as ih =>
      intro pre b h
      have := ih (pre ++ [a]) (f b a) (hs _ _ _ h)
      simpa using this
  simpa using this as [] b h0

theorem names_tru {app : Bytes} (a : ChanAttr) (ha : AppPath app [] a.appname) (ns : List Bytes) :
    ∃ r, ns.foldl Channel.appName (.tru a) = .tru { a with appname := r } ∧ AppPath app ns r := by
  refine foldl_snoc_ind (P := fun ns c => ∃ r, c = Channel.tru { a with appname := r } ∧ AppPath app ns r) ⟨_, rfl, ha⟩ ?_ ns
  rintro as n b ⟨r, rfl, h⟩
  exact ⟨_, rfl, .step h (validator_sanitised _ 48)⟩

theorem isTrimOf_sub {t s : Bytes} (h : IsTrimOf t s) : ∀ x ∈ t, x ∈ s := by
  obtain ⟨⟨ws, _, e⟩, _⟩ := h
  intro x hx
  rw [e]; simp [hx]

/-- What one line sends. -/
theorem logCall_run {host : Option Bytes} {pid out : Nat} {p : Int} {app : Bytes} {s0 s : Syslog}
    (h0 : Syslog.new host pid out p app = some s0) (hs : Fresh s0 s) (c : LogCall) :
    ∃ s', Fresh s0 s' ∧ if c.sev % 8 ≤ p % 8 then ∃ m, c.run s = .ret (s', [(out, m)]) ∧ SaysMessage host pid p app c m
      else c.run s = .ret (s', []) := by
  have hnew : s0.facility = Priority.facility p ∧ s0.minSev = Priority.severity p ∧ s0.output = out ∧ s0.appname = validApp app ∧
      s0.hostname = validHost (host.getD b!"-") ∧ s0.pid = natDec pid := by
    unfold Syslog.new at h0
    simp only at h0
    split at h0
    · simp at h0
    · simp only [Option.some.injEq] at h0
      subst h0
      refine ⟨rfl, rfl, rfl, rfl, ?_, ?_⟩
      · cases host <;> rfl
      · simp only
        rw [if_neg (natDec_ne_nil pid)]
  obtain ⟨e1, e2, e3, e4, e5, e6⟩ := hnew
  have hr := sev_range p
  have hrs := sev_range c.sev
  have hfr := fac_range p
  obtain ⟨s', hch, hf⟩ := fresh_channel hs (by rw [e2]; exact hr) c.sev
  refine ⟨s', hf, ?_⟩
  have hrun : c.run s = .ret (s', match c.sd with
      | none => ((match c.id with
        | none => c.names.foldl Channel.appName (freshChannel s0 (Priority.severity c.sev))
        | some x => (c.names.foldl Channel.appName (freshChannel s0 (Priority.severity c.sev))).msgid x).write c.now c.text).2
      | some sd => (match c.id with
        | none => c.names.foldl Channel.appName (freshChannel s0 (Priority.severity c.sev))
        | some x => (c.names.foldl Channel.appName (freshChannel s0 (Priority.severity c.sev))).msgid x).log c.now c.text sd) := by
    unfold LogCall.run
    rw [hch]
    rfl
  have hcond : Priority.severity c.sev ≤ s0.minSev ↔ c.sev % 8 ≤ p % 8 := by rw [e2, severity_eq, severity_eq]
  split
  · next hle =>
    rw [freshChannel, if_pos (hcond.mpr hle)] at hrun
    obtain ⟨r, hn, hpath⟩ := names_tru (app := app)
      ⟨Priority.or s0.facility (Priority.severity c.sev), s0.hostname, s0.pid, s0.appname, b!"-", s0.output⟩
      (by simp only; rw [e4]; exact .base (validator_sanitised _ _)) c.names
    rw [hn] at hrun
    have hor : Priority.or s0.facility (Priority.severity c.sev) = (p % 256 / 8 * 8 + c.sev % 8 : Int) := by
      rw [e1, or_eq_add hfr.1 hfr.2.1 (by omega) hrs.1 (by omega), facility_eq, severity_eq]
    rw [hor] at hrun
    cases hid : c.id with
    | none =>
      simp only [hid] at hrun
      cases hsd : c.sd with
      | none =>
        simp only [hsd, Channel.write] at hrun
        rw [e3] at hrun
        exact ⟨_, hrun, rfl, rfl, by rw [Channel.forge, Message.forge, e5]; exact validator_sanitised _ _, hpath, e6, by rw [hid]; rfl,
          trim_spec _, by rw [hsd]; rfl⟩
      | some sd =>
        simp only [hsd, Channel.log] at hrun
        rw [e3] at hrun
        refine ⟨_, hrun, ?_⟩
        cases sd with
        | nil => exact ⟨rfl, rfl, by rw [e5]; exact validator_sanitised _ _, hpath, e6, by rw [hid]; rfl, trim_spec _, by rw [hsd]; rfl⟩
        | cons x l => exact ⟨rfl, rfl, by rw [e5]; exact validator_sanitised _ _, hpath, e6, by rw [hid]; rfl, trim_spec _, by rw [hsd]; rfl⟩
    | some x =>
      simp only [hid, Channel.msgid] at hrun
      cases hsd : c.sd with
      | none =>
        simp only [hsd, Channel.write] at hrun
        rw [e3] at hrun
        exact ⟨_, hrun, rfl, rfl, by rw [e5]; exact validator_sanitised _ _, hpath, e6, by rw [hid]; exact validator_sanitised _ _,
          trim_spec _, by rw [hsd]; rfl⟩
      | some sd =>
        simp only [hsd, Channel.log] at hrun
        rw [e3] at hrun
        refine ⟨_, hrun, ?_⟩
        cases sd with
        | nil => exact ⟨rfl, rfl, by rw [e5]; exact validator_sanitised _ _, hpath, e6, by rw [hid]; exact validator_sanitised _ _, trim_spec _, by rw [hsd]; rfl⟩
        | cons y l => exact ⟨rfl, rfl, by rw [e5]; exact validator_sanitised _ _, hpath, e6, by rw [hid]; exact validator_sanitised _ _, trim_spec _, by rw [hsd]; rfl⟩
  · next hle =>
    rw [freshChannel, if_neg (fun h => hle (hcond.mp h)), names_devNull] at hrun
    cases hid : c.id <;> cases hsd : c.sd <;> simpa [hid, hsd, Channel.msgid, Channel.write, Channel.log] using hrun

theorem logAll_fresh {host : Option Bytes} {pid out : Nat} {p : Int} {app : Bytes} {s0 : Syslog}
    (h0 : Syslog.new host pid out p app = some s0) (cs : List LogCall) : ∀ s, Fresh s0 s →
    ∃ s' ms, logAll s cs = .ret (s', ms.map fun m => (out, m)) ∧ Each (SaysMessage host pid p app) (passing p cs) ms := by
  induction cs with
  | nil => intro s _; exact ⟨s, [], rfl, .nil⟩
  | cons c cs ih =>
    intro s hs
    obtain ⟨s1, h1, h2⟩ := logCall_run h0 hs c
    obtain ⟨s2, ms, h3, h4⟩ := ih s1 h1
    split at h2
    · next hle =>
      obtain ⟨m, h5, h6⟩ := h2
      refine ⟨s2, m :: ms, ?_, ?_⟩
      · unfold logAll; rw [h5]; simp only [Out.ret_bind]; rw [h3]; rfl
      · rw [passing, List.filter_cons_of_pos (by simpa using hle)]; exact .cons h6 h4
    · next hle =>
      refine ⟨s2, ms, ?_, ?_⟩
      · unfold logAll; rw [h2]; simp only [Out.ret_bind]; rw [h3]; rfl
      · rw [passing, List.filter_cons_of_neg (by simpa using hle)]; exact h4

/-- **C73.** A program that creates a `Syslog` with a non-empty name and runs any list of log lines never panics, and sends,
to the sender it gave to `New`, exactly one message for each line whose severity passes the threshold, in order, saying what
the line says. -/
theorem C73_sent (host : Option Bytes) (pid out : Nat) (p : Int) (app : Bytes) (happ : app ≠ []) :
    ∃ s0, Syslog.new host pid out p app = some s0 ∧ ∀ cs, ∃ s' ms, logAll s0 cs = .ret (s', ms.map fun m => (out, m)) ∧
      Each (SaysMessage host pid p app) (passing p cs) ms := by
  cases h : Syslog.new host pid out p app with
  | none => exact absurd ((C29_new host pid out p app).mp h) happ
  | some s0 =>
    refine ⟨s0, rfl, fun cs => logAll_fresh h cs s0 ⟨?_, .inl rfl⟩⟩
    unfold Syslog.new at h
    simp only at h
    split at h
    · simp at h
    · simp only [Option.some.injEq] at h
      subst h; rfl

theorem sanitised_validField {n : Nat} (hn : 1 ≤ n) {x y : Bytes} (h : IsSanitised n x y) : ValidField n y := by
  have := sanitised_unique h (validator_sanitised x n)
  rw [this]
  exact validator_valid x hn

/-- A line's message has a header that can be read back. -/
theorem says_good {host : Option Bytes} {pid : Nat} {p : Int} {app : Bytes} {c : LogCall} {m : Message} (hpid : pid < 2 ^ 63)
    (h : SaysMessage host pid p app c m) : GoodMsg m := by
  refine ⟨?_, sanitised_validField (by decide) h.hostname, ?_, by rw [h.procid]; exact natDec_validPid pid hpid, ?_⟩
  · rw [h.prio]
    show (0 : Int) ≤ p % 256 / 8 * 8 + c.sev % 8 ∧ (p % 256 / 8 * 8 + c.sev % 8 : Int) ≤ 299
    omega
  · have hn := h.appname
    generalize c.names = ns at hn
    cases hn with
    | base h => exact sanitised_validField (by decide) h
    | step _ h => exact sanitised_validField (by decide) h
  · have := h.msgid
    cases hid : c.id with
    | none => rw [hid] at this; simp only at this; rw [this]; decide
    | some x => rw [hid] at this; exact sanitised_validField (by decide) this

theorem says_intact {host : Option Bytes} {pid : Nat} {p : Int} {app : Bytes} {c : LogCall} {m : Message} (hpid : pid < 2 ^ 63)
    (h : SaysMessage host pid p app c m) (hl : Loggable c) : Intact m :=
  ⟨says_good hpid h, by rw [h.timestamp]; exact hl.time, by rw [h.sd]; exact hl.sd,
    fun hne => hl.text (by rw [← h.sd]; exact hne) _ h.message⟩

theorem says_received {host : Option Bytes} {pid : Nat} {p : Int} {app : Bytes} {c : LogCall} {m : Message} {d : Tok.Delivered}
    (h : SaysMessage host pid p app c m) (hr : IsReceived m d) : Says host pid p app c d := by
  refine ⟨hr.err, by rw [hr.priority, h.prio], by rw [hr.timeStamp, h.timestamp], ⟨_, hr.hostname, h.hostname⟩, ⟨_, hr.appName, h.appname⟩,
    by rw [hr.procID, h.procid], ⟨_, hr.msgID, h.msgid⟩, ⟨_, hr.text, h.message⟩, ?_, by rw [← h.sd]; exact hr.registered⟩
  obtain ⟨l, h1, h2⟩ := hr.structuredData
  exact ⟨l, h1, by rw [h2, h.sd]⟩

theorem each_mem {α β : Type} {R : α → β → Prop} {as : List α} {bs : List β} (h : Each R as bs) : ∀ b ∈ bs, ∃ a ∈ as, R a b := by
  induction h with
  | nil => simp
  | cons hr _ ih =>
    intro b hb
    rcases List.mem_cons.mp hb with rfl | hb
    · exact ⟨_, by simp, hr⟩
    · obtain ⟨a, h1, h2⟩ := ih b hb
      exact ⟨a, by simp [h1], h2⟩

/-- **C73.** What was logged is what is received: if the messages given to the sender are those of a list of log lines, then,
at every moment, what `Receive` has returned from the connection of the sender is what the lines that pass the threshold say,
from the first one on, in order, each exactly once. The receiver must not have crashed. -/
theorem C73_received_partial (host : Option Bytes) (pid out : Nat) (p : Int) (app : Bytes) (hpid : pid < 2 ^ 63) (s0 s1 : Syslog)
    (h0 : Syslog.new host pid out p app = some s0) (cs : List LogCall) (hcs : ∀ c ∈ cs, Loggable c)
    (es : List Sender.Event) (hlog : logAll s0 cs = .ret (s1, (sent es).map fun m => (out, m)))
    (hsize : ∀ m ∈ sent es, ∀ b, m.marshal = .ret (.ok b) → b.length < 2 ^ 62)
    (s : Sender.State) (hs : History .rfc5425 es s) (c : Sender.Conn) (r : List Sender.Conn) (hc : s.conns = c :: r)
    (lenQueue : Nat) (er : List Recv.Event) (q : Recv.State) (hq : Recv.run .rfc5425 lenQueue Recv.init er = some q) (hcr : q.crashed = false)
    (i : Nat) (k : Recv.Conn) (hi : q.conns[i]? = some k)
    (hwire : arrived (readsOf i er) <+: c.writes.flatten) :
    Each (Says host pid p app) ((passing p cs).take (ofConn i q.got).length) (ofConn i q.got) := by
  have happ : app ≠ [] := fun h => by rw [(C29_new host pid out p app).mpr h] at h0; cases h0
  obtain ⟨s0', e0, hall⟩ := C73_sent host pid out p app happ
  rw [h0] at e0
  simp only [Option.some.injEq] at e0
  subst e0
  obtain ⟨s2, ms, g1, g2⟩ := hall cs
  rw [hlog] at g1
  simp only [Out.ret.injEq, Prod.mk.injEq] at g1
  have hms : sent es = ms := by
    have := congrArg (List.map Prod.snd) g1.2
    simpa [List.map_map, Function.comp_def] using this
  have htr : ∀ m ∈ sent es, Transmissible m := by
    intro m hm
    obtain ⟨cl, h1, h2⟩ := each_mem g2 m (by rw [← hms]; exact hm)
    exact ⟨says_intact hpid h2 (hcs cl (List.mem_filter.mp h1).1), hsize m hm⟩
  have main := C53_in_order_partial es s hs htr c r hc lenQueue er q hq hcr i k hi hwire
  rw [hms] at main
  exact each_trans (each_take g2 _) main (fun _ _ _ _ a b => says_received a b)

/-- **C73.** After `End` has returned, everything that was logged before has been received, as soon as everything that was
written to the one connection of the sender has arrived and been received. -/
theorem C73_complete_partial (host : Option Bytes) (pid out : Nat) (p : Int) (app : Bytes) (hpid : pid < 2 ^ 63) (s0 s1 : Syslog)
    (h0 : Syslog.new host pid out p app = some s0) (cs : List LogCall) (hcs : ∀ c ∈ cs, Loggable c)
    (before after : List Sender.Event) (hlog : logAll s0 cs = .ret (s1, (sent before).map fun m => (out, m)))
    (hsize : ∀ m ∈ sent before, ∀ b, m.marshal = .ret (.ok b) → b.length < 2 ^ 62)
    (s : Sender.State) (hs : History .rfc5425 (before ++ .endCall :: after) s) (hret : s.endCompleted = true) (hal : s.crashed = false)
    (hno : sent after = []) (c : Sender.Conn) (hc : s.conns = [c])
    (lenQueue : Nat) (er : List Recv.Event) (q : Recv.State) (hq : Recv.run .rfc5425 lenQueue Recv.init er = some q) (hcr : q.crashed = false)
    (i : Nat) (k : Recv.Conn) (hi : q.conns[i]? = some k)
    (hwire : arrived (readsOf i er) = c.writes.flatten) (hp : k.pending = []) (hpipe : ofConn i q.pipeline = []) :
    Each (Says host pid p app) (passing p cs) (ofConn i q.got) := by
  have happ : app ≠ [] := fun h => by rw [(C29_new host pid out p app).mpr h] at h0; cases h0
  obtain ⟨s0', e0, hall⟩ := C73_sent host pid out p app happ
  rw [h0] at e0
  simp only [Option.some.injEq] at e0
  subst e0
  obtain ⟨s2, ms, g1, g2⟩ := hall cs
  rw [hlog] at g1
  simp only [Out.ret.injEq, Prod.mk.injEq] at g1
  have hms : sent before = ms := by
    have := congrArg (List.map Prod.snd) g1.2
    simpa [List.map_map, Function.comp_def] using this
  have htr : ∀ m ∈ sent before, Transmissible m := by
    intro m hm
    obtain ⟨cl, h1, h2⟩ := each_mem g2 m (by rw [← hms]; exact hm)
    exact ⟨says_intact hpid h2 (hcs cl (List.mem_filter.mp h1).1), hsize m hm⟩
  have main := C53_end_partial before after s hs hret hal hno htr c hc lenQueue er q hq hcr i k hi hwire hp hpipe
  rw [hms] at main
  exact each_trans g2 main (fun _ _ _ _ a b => says_received a b)

/-! The hypotheses are met by a program that logs three lines, one of which is filtered out, one with an application name, a
message identifier and structured data. -/

/-- The time of the lines. -/
def demoNow : Time := ⟨2003, 10, 11, 22, 14, 15, 3000789, -25200⟩

/-- The program. -/
def demoLog : List LogCall :=
  [⟨5, [b!"db"], some b!"ID47", demoNow, b!"An event \n", some (exampleMsg b!"").sd⟩,
   ⟨7, [], none, demoNow, b!"filtered", some []⟩,
   ⟨0, [], none, demoNow, b!"written", none⟩]

/-- The messages sent. -/
def demoLogged : List Message :=
  [⟨165, demoNow, b!"host", b!"app/db", b!"42", b!"ID47", (exampleMsg b!"").sd, b!"An event"⟩,
   ⟨160, demoNow, b!"host", b!"app", b!"42", b!"-", [], b!"written"⟩]

/-- The frames written. -/
def demoLoggedFrames : List Bytes := demoLogged.map fun m => match m.marshal with
  | .ret (.ok b) => Transport.rfc5425.encode b
  | _ => []

/-- The sender. -/
def demoLogSent : List Sender.Event :=
  demoLogged.map .send ++ .endCall :: [.seeEnd, .tau, .tau, .connect none, .tau, .tau, .write (demoLoggedFrames[0]!).length none,
    .write (demoLoggedFrames[1]!).length none, .tau, .tau, .tau, .tau, .tau, .tau]

/-- The receiver. -/
def demoLogReceived : List Recv.Event :=
  [.tau, .acceptOk, .read 0 { data := demoLoggedFrames.flatten.take 50 }, .read 0 { data := demoLoggedFrames.flatten.drop 50 }, .handoff 0, .handoff 0]

example : ∃ s0 s1, Syslog.new (some b!"host") 42 3 166 b!"app" = some s0 ∧
    logAll s0 demoLog = .ret (s1, (sent (demoLogged.map .send)).map fun m => (3, m)) :=
  ⟨_, { (Syslog.new (some b!"host") 42 3 166 b!"app").get rfl with channels := ((Syslog.new (some b!"host") 42 3 166 b!"app").get rfl).table }, rfl, by with_unfolding_all rfl⟩

example : ∀ c ∈ demoLog, Loggable c := by
  have hv : demoNow.Valid := by constructor <;> decide +kernel
  intro c hc
  simp only [demoLog, List.mem_cons, List.not_mem_nil, or_false] at hc
  rcases hc with rfl | rfl | rfl
  · exact ⟨hv, ⟨_, exampleMsg_sd b!""⟩, fun _ t ht => freeText_plain fun hm => absurd (isTrimOf_sub ht _ hm) (by decide +kernel)⟩
  · exact ⟨hv, ⟨[], rfl, by simp⟩, fun h => absurd rfl h⟩
  · exact ⟨hv, ⟨[], rfl, by simp⟩, fun h => absurd rfl h⟩

example : ∃ s c q k, History .rfc5425 demoLogSent s ∧ s.endCompleted = true ∧ s.crashed = false ∧ s.conns = [c] ∧
    Recv.run .rfc5425 0 Recv.init demoLogReceived = some q ∧ q.crashed = false ∧ q.conns[0]? = some k ∧
    k.pending = [] ∧ ofConn 0 q.pipeline = [] ∧ arrived (readsOf 0 demoLogReceived) = c.writes.flatten ∧ (ofConn 0 q.got).length = 2 := by
  have h : (match Recv.run .rfc5425 0 Recv.init demoLogReceived with
      | some q => !q.crashed && q.pipeline.isEmpty && decide ((ofConn 0 q.got).length = 2) &&
        (match q.conns[0]? with | some k => k.pending.isEmpty | none => false)
      | none => false) = true := by decide +kernel
  cases hq : Recv.run .rfc5425 0 Recv.init demoLogReceived with
  | none => rw [hq] at h; cases h
  | some q =>
    rw [hq] at h
    cases hk : q.conns[0]? with
    | none => simp [hk] at h
    | some k =>
      simp only [hk, Bool.and_eq_true, Bool.not_eq_true', List.isEmpty_iff, decide_eq_true_eq] at h
      refine ⟨⟨[], [⟨demoLoggedFrames, true⟩], true, false, [], true, true, false, false, .closeErr⟩, ⟨demoLoggedFrames, true⟩, q, k,
        by decide +kernel, rfl, rfl, rfl, rfl, h.1.1.1, hk, h.2, ?_, by decide +kernel, h.1.2⟩
      rw [h.1.1.2]; rfl

end Syslog5424
