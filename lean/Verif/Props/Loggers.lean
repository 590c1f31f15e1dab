import Verif.Spec.Loggers
import Verif.Props.Goroutines
/-! # C118: several loggers on one sender -/
namespace Syslog5424
open Spec Sender

/-- The message of a line on a logger. -/
structure SaysOnMessage (L : Logger) (c : LogCall) (m : Message) : Prop where
  prio : m.prio = (L.p % 256 / 8 * 8 + c.sev % 8 : Int)
  timestamp : m.timestamp = c.now
  hostname : IsSanitised 255 (L.host.getD b!"-") m.hostname
  appname : NamePath L.app L.subs c.names m.appname
  procid : m.procid = natDec L.pid
  msgid : match c.id with
    | none => m.msgid = b!"-"
    | some x => IsSanitised 32 x m.msgid
  message : IsTrimOf m.message c.text
  sd : m.sd = c.sd.getD []

/-- A `Syslog` made by `New` and `SubSyslog`. -/
structure LoggerInv (L : Logger) (out : Nat) (subs : List Bytes) (s : Syslog) : Prop where
  facility : s.facility = Priority.facility L.p
  minSev : s.minSev = Priority.severity L.p
  output : s.output = out
  hostname : IsSanitised 255 (L.host.getD b!"-") s.hostname
  pid : s.pid = natDec L.pid
  appname : NamePath L.app subs [] s.appname
  table : ∀ l, s.channels = some l → Syslog.fill s s.appname (s.minSev + 1).toNat Syslog.nulls = some l

theorem loggerInv_new {L : Logger} {out : Nat} {s : Syslog} (h : Syslog.new L.host L.pid out L.p L.app = some s) : LoggerInv L out [] s := by
  unfold Syslog.new at h
  simp only at h
  split at h
  · simp at h
  · simp only [Option.some.injEq] at h
    subst h
    refine ⟨rfl, rfl, rfl, ?_, ?_, .new (validator_sanitised _ _), by simp⟩
    · cases L.host <;> exact validator_sanitised _ _
    · simp only
      rw [if_neg (natDec_ne_nil L.pid)]

theorem fill_congr {s s' : Syslog} (hf : s.facility = s'.facility) (hh : s.hostname = s'.hostname) (hp : s.pid = s'.pid)
    (ho : s.output = s'.output) (app : Bytes) (n : Nat) (l : List Channel) : Syslog.fill s app n l = Syslog.fill s' app n l := by
  induction n with
  | zero => rfl
  | succ n ih =>
    unfold Syslog.fill
    rw [ih, hf, hh, hp, ho]

theorem loggerInv_sub {L : Logger} {out : Nat} {subs : List Bytes} {s s' : Syslog} (h : LoggerInv L out subs s) {n : Bytes}
    (hc : s.subSyslog n = .ret s') : LoggerInv L out (subs ++ [n]) s' := by
  unfold Syslog.subSyslog at hc
  simp only at hc
  split at hc
  · cases hc
  · next l hl =>
    simp only [Out.ret.injEq] at hc
    subst hc
    refine ⟨h.facility, h.minSev, h.output, h.hostname, h.pid, .sub h.appname, ?_⟩
    intro l' hl'
    simp only [Option.some.injEq] at hl'
    subst hl'
    simp only
    rw [← hl]
    apply fill_congr <;> rfl

theorem loggerInv_subs {L : Logger} {out : Nat} (more : List Bytes) : ∀ {subs : List Bytes} {s s' : Syslog}, LoggerInv L out subs s →
    s.calls (more.map Syslog.Call.sub) = .ret s' → LoggerInv L out (subs ++ more) s' := by
  induction more with
  | nil =>
    intro subs s s' h hc
    simp only [List.map_nil, Syslog.calls, Out.ret.injEq] at hc
    subst hc
    simpa using h
  | cons n more ih =>
    intro subs s s' h hc
    simp only [List.map_cons, Syslog.calls, Syslog.call] at hc
    cases e : s.subSyslog n with
    | ret s1 =>
      rw [e] at hc
      have := ih (loggerInv_sub h e) hc
      simpa using this
    | panic => rw [e] at hc; cases hc
    | hang => rw [e] at hc; cases hc

/-- On a logger that is ready `Channel` changes nothing. -/
theorem made_channel {L : Logger} {out : Nat} {s : Syslog} (h : L.Made out s) : ∃ name hostname, NamePath L.app L.subs [] name ∧
    IsSanitised 255 (L.host.getD b!"-") hostname ∧ ∀ sev : Int, s.channel sev = .ret (s, if sev % 8 ≤ L.p % 8 then
      .tru ⟨(L.p % 256 / 8 * 8 + sev % 8 : Int), hostname, natDec L.pid, name, b!"-", out⟩ else .devNull) := by
  obtain ⟨s0, s1, x, c, h0, h1, h2⟩ := h
  have i1 := loggerInv_subs L.subs (loggerInv_new h0) h1
  simp only [List.nil_append] at i1
  have hr := sev_range L.p
  have hfr := fac_range L.p
  have hmin : s1.minSev ≤ 7 := by rw [i1.minSev]; exact hr.2
  obtain ⟨l, f1, f2, f3⟩ := fill_eq s1 s1.appname (s1.minSev + 1).toNat (by omega)
  have ht : s1.table = some l := by
    unfold Syslog.table
    cases hc : s1.channels with
    | none => exact f1
    | some l' =>
      have := i1.table l' hc
      rw [f1] at this
      exact this.symm
  have hs : s = { s1 with channels := some l } := by
    unfold Syslog.channel at h2
    rw [ht] at h2
    simp only at h2
    split at h2
    · split at h2
      · simp only [Out.ret.injEq, Prod.mk.injEq] at h2
        exact h2.1.symm
      · cases h2
    · cases h2
  refine ⟨s1.appname, s1.hostname, i1.appname, i1.hostname, ?_⟩
  intro sev
  have hrs := sev_range sev
  have e := f3 (Priority.severity sev).toNat (by omega)
  subst hs
  unfold Syslog.channel
  have htab : ({ s1 with channels := some l } : Syslog).table = some l := rfl
  rw [htab]
  simp only
  rw [if_pos hrs.1, e]
  have hcond : (Priority.severity sev).toNat < (s1.minSev + 1).toNat ↔ sev % 8 ≤ L.p % 8 := by
    have h1 := severity_eq sev
    have h2 := severity_eq L.p
    rw [i1.minSev]
    omega
  simp only [Out.ret.injEq, Prod.mk.injEq, true_and]
  by_cases hc : sev % 8 ≤ L.p % 8
  · rw [if_pos hc, if_pos (hcond.mpr hc), i1.facility, i1.pid, i1.output, Int.toNat_of_nonneg hrs.1,
      or_eq_add hfr.1 hfr.2.1 (by omega) hrs.1 (by omega), facility_eq, severity_eq]
  · rw [if_neg hc, if_neg (fun h => hc (hcond.mp h))]

theorem names_on {app : Bytes} {ss : List Bytes} (a : ChanAttr) (ha : NamePath app ss [] a.appname) (ns : List Bytes) :
    ∃ r, ns.foldl Channel.appName (.tru a) = .tru { a with appname := r } ∧ NamePath app ss ns r := by
  refine foldl_snoc_ind (P := fun ns c => ∃ r, c = Channel.tru { a with appname := r } ∧ NamePath app ss ns r) ⟨_, rfl, ha⟩ ?_ ns
  rintro as n b ⟨r, rfl, h⟩
  exact ⟨_, rfl, .appName h (validator_sanitised _ 48)⟩

/-- What one line on a logger sends. -/
theorem lineOn_run {L : Logger} {out : Nat} {s : Syslog} (h : L.Made out s) (c : LogCall) :
    if c.sev % 8 ≤ L.p % 8 then ∃ m, c.run s = .ret (s, [(out, m)]) ∧ SaysOnMessage L c m else c.run s = .ret (s, []) := by
  obtain ⟨name, hostname, hname, hhost, hch⟩ := made_channel h
  have hrun : ∀ ch, s.channel c.sev = .ret (s, ch) → c.run s = .ret (s, match c.sd with
      | none => ((match c.id with
        | none => c.names.foldl Channel.appName ch
        | some x => (c.names.foldl Channel.appName ch).msgid x).write c.now c.text).2
      | some sd => (match c.id with
        | none => c.names.foldl Channel.appName ch
        | some x => (c.names.foldl Channel.appName ch).msgid x).log c.now c.text sd) := by
    intro ch e
    unfold LogCall.run
    rw [e]
    rfl
  have hrun := hrun _ (hch c.sev)
  split
  · next hle =>
    rw [if_pos hle] at hrun
    obtain ⟨r, hn, hpath⟩ := names_on ⟨(L.p % 256 / 8 * 8 + c.sev % 8 : Int), hostname, natDec L.pid, name, b!"-", out⟩ hname c.names
    rw [hn] at hrun
    cases hid : c.id with
    | none =>
      simp only [hid] at hrun
      cases hsd : c.sd with
      | none =>
        simp only [hsd, Channel.write] at hrun
        exact ⟨_, hrun, rfl, rfl, hhost, hpath, rfl, by rw [hid]; rfl, trim_spec _, by rw [hsd]; rfl⟩
      | some sd =>
        simp only [hsd, Channel.log] at hrun
        refine ⟨_, hrun, ?_⟩
        cases sd with
        | nil => exact ⟨rfl, rfl, hhost, hpath, rfl, by rw [hid]; rfl, trim_spec _, by rw [hsd]; rfl⟩
        | cons x l => exact ⟨rfl, rfl, hhost, hpath, rfl, by rw [hid]; rfl, trim_spec _, by rw [hsd]; rfl⟩
    | some x =>
      simp only [hid, Channel.msgid] at hrun
      cases hsd : c.sd with
      | none =>
        simp only [hsd, Channel.write] at hrun
        exact ⟨_, hrun, rfl, rfl, hhost, hpath, rfl, by rw [hid]; exact validator_sanitised _ _, trim_spec _, by rw [hsd]; rfl⟩
      | some sd =>
        simp only [hsd, Channel.log] at hrun
        refine ⟨_, hrun, ?_⟩
        cases sd with
        | nil => exact ⟨rfl, rfl, hhost, hpath, rfl, by rw [hid]; exact validator_sanitised _ _, trim_spec _, by rw [hsd]; rfl⟩
        | cons y l => exact ⟨rfl, rfl, hhost, hpath, rfl, by rw [hid]; exact validator_sanitised _ _, trim_spec _, by rw [hsd]; rfl⟩
  · next hle =>
    rw [if_neg hle, names_devNull] at hrun
    cases hid : c.id <;> cases hsd : c.sd <;> simpa [hid, hsd, Channel.msgid, Channel.write, Channel.log] using hrun

/-- What a program with several loggers sends. -/
theorem logOn_stable {L : Nat → Logger} {ss : Nat → Syslog} {out : Nat} (h : ∀ k, (L k).Made out (ss k)) (cs : List (Nat × LogCall)) :
    ∃ ms, logOn ss cs = .ret (ss, ms.map fun m => (out, m)) ∧ Each (fun c m => SaysOnMessage (L c.1) c.2 m) (passingOn L cs) ms := by
  have hid : ∀ k, (fun j => if j = k then ss k else ss j) = ss := by
    intro k; funext j
    split
    · next e => rw [e]
    · rfl
  induction cs with
  | nil => exact ⟨[], rfl, .nil⟩
  | cons c cs ih =>
    obtain ⟨k, c⟩ := c
    obtain ⟨ms, h3, h4⟩ := ih
    have h2 := lineOn_run (h k) c
    split at h2
    · next hle =>
      obtain ⟨m, h5, h6⟩ := h2
      refine ⟨m :: ms, ?_, ?_⟩
      · unfold logOn; rw [h5]; simp only [Out.ret_bind, hid]; rw [h3]; rfl
      · rw [passingOn, List.filter_cons_of_pos (by simpa using hle)]; exact .cons h6 h4
    · next hle =>
      refine ⟨ms, ?_, ?_⟩
      · unfold logOn; rw [h2]; simp only [Out.ret_bind, hid]; rw [h3]; rfl
      · rw [passingOn, List.filter_cons_of_neg (by simpa using hle)]; exact h4

theorem runsOn_says {L : Nat → Logger} {ss : Nat → Syslog} {out : Nat} (h : ∀ k, (L k).Made out (ss k)) {cs : List (Nat × LogCall)}
    {ms : List Message} (hr : RunsOn ss out cs ms) :
    Each (fun c m => SaysOnMessage (L c.1) c.2 m) ((passingOn L cs).take ms.length) ms := by
  obtain ⟨all, h1, h2⟩ := hr
  obtain ⟨ms', g1, g2⟩ := logOn_stable h cs
  rw [h1] at g1
  simp only [Out.ret.injEq, Prod.mk.injEq, true_and] at g1
  have hms : all = ms' := by
    have := congrArg (List.map Prod.snd) g1
    simpa [List.map_map, Function.comp_def] using this
  subst hms
  obtain ⟨tl, rfl⟩ := h2
  exact each_prefix g2

theorem namePath_valid {t : Transport} {L : Logger} {c : LogCall} (ht : TravelsOn t L c) {r : Bytes} (h : NamePath L.app L.subs c.names r) :
    ValidField 48 r := by
  have key : ∀ ss ns, NamePath L.app ss ns r → (ns = [] → ∀ r, NamePath L.app ss [] r → ValidField 48 r) → ValidField 48 r := by
    intro ss ns h hn
    cases h with
    | new h => exact sanitised_validField (by decide) h
    | sub _ => exact hn rfl _ (.sub (by assumption))
    | appName _ h => exact sanitised_validField (by decide) h
  exact key _ _ h ht.name

theorem saysOn_good {t : Transport} {L : Logger} {c : LogCall} {m : Message} (h : SaysOnMessage L c m) (ht : TravelsOn t L c) : GoodMsg m := by
  refine ⟨?_, sanitised_validField (by decide) h.hostname, namePath_valid ht h.appname, by rw [h.procid]; exact natDec_validPid _ ht.pid, ?_⟩
  · rw [h.prio]
    show (0 : Int) ≤ L.p % 256 / 8 * 8 + c.sev % 8 ∧ (L.p % 256 / 8 * 8 + c.sev % 8 : Int) ≤ 299
    omega
  · have := h.msgid
    cases hid : c.id with
    | none => rw [hid] at this; simp only at this; rw [this]; decide
    | some x => rw [hid] at this; exact sanitised_validField (by decide) this

/-- The message of a line that the transport carries. -/
theorem saysOn_travels {t : Transport} {L : Logger} {c : LogCall} {m : Message} (h : SaysOnMessage L c m) (ht : TravelsOn t L c)
    (hsize : t = .rfc5425 → ∀ b, m.marshal = .ret (.ok b) → b.length < 2 ^ 62) : TravelsOver t m := by
  refine ⟨fun e => ?_, fun z hz => ?_⟩
  · have hl := ht.line.1 e
    exact ⟨⟨saysOn_good h ht, by rw [h.timestamp]; exact hl.time, by rw [h.sd]; exact hl.sd,
      fun hne => hl.text (by rw [← h.sd]; exact hne) _ h.message⟩, hsize e⟩
  · have hl := ht.line.2 z hz
    exact ⟨saysOn_good h ht, by rw [h.timestamp]; exact hl.time, by rw [h.sd]; exact hl.sd, (hl.text _ h.message).1, (hl.text _ h.message).2⟩

theorem saysOn_received {L : Logger} {c : LogCall} {m : Message} {d : Tok.Delivered}
    (h : SaysOnMessage L c m) (hr : IsReceived m d) : SaysOn L c d := by
  refine ⟨hr.err, by rw [hr.priority, h.prio], by rw [hr.timeStamp, h.timestamp], ⟨_, hr.hostname, h.hostname⟩, ⟨_, hr.appName, h.appname⟩,
    by rw [hr.procID, h.procid], ⟨_, hr.msgID, h.msgid⟩, ⟨_, hr.text, h.message⟩, ?_, by rw [← h.sd]; exact hr.registered⟩
  obtain ⟨l, h1, h2⟩ := hr.structuredData
  exact ⟨l, h1, by rw [h2, h.sd]⟩

/-- From an explanation of the history to the lines. -/
theorem interleaved_on {t : Transport} {L : Nat → Logger} {ss : Nat → Syslog} {out : Nat} (hmade : ∀ k, (L k).Made out (ss k))
    {prog : Nat → List (Nat × LogCall)}
    {h h' : List FEvent} {f f' : FState} {l l' : List (Option Nat × Event)} (hrun : ∀ g, RunsOn ss out (prog g) (givenBy g (h ++ h')))
    (hok : ∀ g, ∀ m ∈ givenBy g (h ++ h'), ∃ b, m.marshal = .ret (.ok b))
    (hh : FHistory t (h ++ h') f') (he : Explains t h f l) (he' : Explains t (h ++ h') f' (l ++ l')) :
    ∃ a b, InterleavingOn L prog h a ∧ InterleavingOn L prog (h ++ h') (a ++ b) ∧ a.length = (sendsOf l).length ∧
      Each (fun c m => SaysOnMessage (L c.1) c.2 m) ((a ++ b).map (·.2)) (sent ((l ++ l').map (·.2))) := by
  have hn : ∀ m, Event.send m ∉ rest (l ++ l') := by rw [he'.others]; exact no_other_send hh
  have hs : sent ((l ++ l').map (·.2)) = (sendsOf (l ++ l')).map (·.2) :=
    sent_sendsOf _ hn (fun m hm => by obtain ⟨g, hg⟩ := sent_given hh he' hm; exact hok g m hg)
  have hacc' := he'.accepted
  have hacc := he.accepted
  have hgiven : ∀ g, accepted (called g (h ++ h')) = givenBy g (h ++ h') := fun g => messagesOf_map _ (hok g)
  have hsub : ∀ g, ∀ m ∈ messagesOf (called g h), ∃ b, m.marshal = .ret (.ok b) := by
    intro g m hm
    refine hok g m ?_
    unfold givenBy
    rw [called_append]
    simp only [messagesOf, List.filterMap_append, List.mem_append] at hm ⊢
    exact .inl hm
  have htake : ∀ (ops : List CallOp) (n : Nat), (∀ m ∈ messagesOf ops, ∃ b, m.marshal = .ret (.ok b)) →
      accepted (ops.take n) = messagesOf (ops.take n) := by
    intro ops n hops
    refine messagesOf_map _ (fun m hm => hops m ?_)
    simp only [messagesOf, List.mem_filterMap] at hm ⊢
    obtain ⟨o, ho, e⟩ := hm
    exact ⟨o, List.mem_of_mem_take ho, e⟩
  obtain ⟨ab, k1, k2, k3⟩ := relabel (R := fun c m => SaysOnMessage (L c.1) c.2 m) (sendsOf (l ++ l')) (fun g => passingOn L (prog g)) (by
    intro g
    have hp := (hacc' g).2
    rw [hgiven g] at hp
    obtain ⟨tl, htl⟩ := hp
    have := runsOn_says hmade (hrun g)
    rw [← htl] at this
    have := each_prefix this
    rw [List.take_take] at this
    exact ⟨_, this⟩)
  have happ : sendsOf (l ++ l') = sendsOf l ++ sendsOf l' := by simp [sendsOf, List.filterMap_append]
  have hlen : ab.length = (sendsOf l).length + (sendsOf l').length := by
    have := congrArg List.length k1
    simp only [List.length_map, happ, List.length_append] at this
    exact this
  have ka : (ab.take (sendsOf l).length).map (·.1) = (sendsOf l).map (·.1) := by
    rw [List.map_take, k1, happ, List.map_append]
    have : (sendsOf l).length = ((sendsOf l).map (·.1)).length := by simp
    rw [this, List.take_left]
  refine ⟨ab.take (sendsOf l).length, ab.drop (sendsOf l).length, ?_, ?_, ?_, ?_⟩
  · intro g
    have hl := ofGoroutine_length (g := g) ka
    have hpre : ofGoroutine g (ab.take (sendsOf l).length) <+: ofGoroutine g ab := by
      conv => rhs; rw [← List.take_append_drop (sendsOf l).length ab, ofGoroutine_append]
      exact List.prefix_append _ _
    refine ⟨hpre.trans (k3 g), ?_, ?_⟩
    · rw [hl]
      have := (hacc g).1.length_le
      rw [htake _ _ (hsub g)] at this
      exact this
    · rw [hl]
      have := (hacc g).2.length_le
      rw [messagesOf_map _ (hsub g)] at this
      exact this
  · rw [List.take_append_drop]
    intro g
    have hl := ofGoroutine_length (g := g) k1
    refine ⟨k3 g, ?_, ?_⟩
    · rw [hl]
      have := (hacc' g).1.length_le
      rw [htake _ _ (hok g)] at this
      exact this
    · rw [hl]
      have := (hacc' g).2.length_le
      rw [hgiven g] at this
      exact this
  · rw [List.length_take]; omega
  · rw [List.take_append_drop, hs]
    exact k2

theorem travelsOver_marshal {t : Transport} {m : Message} (h : TravelsOver t m) : ∃ b, m.marshal = .ret (.ok b) := by
  cases t with
  | rfc5425 => obtain ⟨b, _, hb, _⟩ := transmissible_frame (h.1 rfl).toIntact; exact ⟨b, hb⟩
  | lfEnded => obtain ⟨_, hb, _⟩ := line_of_message (.inl rfl) (h.2 10 rfl); exact ⟨_, hb⟩
  | zeroEnded => obtain ⟨_, hb, _⟩ := line_of_message (.inr rfl) (h.2 0 rfl); exact ⟨_, hb⟩

theorem runsOn_travels {t : Transport} {L : Nat → Logger} {ss : Nat → Syslog} {out : Nat} (hmade : ∀ k, (L k).Made out (ss k))
    {prog : Nat → List (Nat × LogCall)} (hl : ∀ g, ∀ c ∈ prog g, TravelsOn t (L c.1) c.2) {h : List FEvent}
    (hrun : ∀ g, RunsOn ss out (prog g) (givenBy g h))
    (hsize : t = .rfc5425 → ∀ g, ∀ m ∈ givenBy g h, ∀ b, m.marshal = .ret (.ok b) → b.length < 2 ^ 62) :
    ∀ g, ∀ m ∈ givenBy g h, TravelsOver t m := by
  intro g m hm
  obtain ⟨cl, g1, g2⟩ := each_mem (runsOn_says hmade (hrun g)) m hm
  exact saysOn_travels g2 (hl g cl (List.mem_filter.mp (List.mem_of_mem_take g1)).1) (fun e => hsize e g m hm)

/-- **C118.** A program has any number of loggers on one sender, made by `New` and `SubSyslog`, with different names, thresholds and
facilities; several goroutines run log lines on them, each on any of them, in any interleaving of the steps of their calls with each other
and with the sender. At every moment: what `Receive` has returned from the connection of the sender is what the lines say on their
loggers, one message for each line that passes the threshold of its logger, in an order in which the lines of every goroutine are in the
order of its program, and in which a line that has returned (in `h`) comes before every line that begins later (in `h'`). -/
theorem C118_received_partial (t : Transport) (L : Nat → Logger) (ss : Nat → Syslog) (out : Nat) (hmade : ∀ k, (L k).Made out (ss k))
    (prog : Nat → List (Nat × LogCall)) (hl : ∀ g, ∀ c ∈ prog g, TravelsOn t (L c.1) c.2) (h h' : List FEvent)
    (hrun : ∀ g, RunsOn ss out (prog g) (givenBy g (h ++ h')))
    (hsize : t = .rfc5425 → ∀ g, ∀ m ∈ givenBy g (h ++ h'), ∀ b, m.marshal = .ret (.ok b) → b.length < 2 ^ 62)
    (f f' : FState) (h1 : FHistory t h f) (h2 : frun t f h' = some f')
    (c : Sender.Conn) (r : List Sender.Conn) (hc : f'.s.conns = c :: r)
    (lenQueue : Nat) (er : List Recv.Event) (q : Recv.State) (hq : Recv.run t lenQueue Recv.init er = some q) (hcr : q.crashed = false)
    (i : Nat) (k : Recv.Conn) (hi : q.conns[i]? = some k) (hwire : arrived (readsOf i er) <+: c.writes.flatten) :
    ∃ a b, InterleavingOn L prog h a ∧ InterleavingOn L prog (h ++ h') (a ++ b) ∧
      Each (fun c d => SaysOn (L c.1) c.2 d) (((a ++ b).map (·.2)).take (ofConn i q.got).length) (ofConn i q.got) := by
  obtain ⟨l, l', e1, e2⟩ := C92_linearizable _ h h' f f' h1 h2
  have hh : FHistory t (h ++ h') f' := by
    unfold FHistory at h1 ⊢
    rw [frun_append, h1]; exact h2
  have htr := runsOn_travels hmade hl hrun hsize
  obtain ⟨a, b, k1, k2, _, k3⟩ := interleaved_on hmade hrun (fun g m hm => travelsOver_marshal (htr g m hm)) hh e1 e2
  refine ⟨a, b, k1, k2, ?_⟩
  have hsent : ∀ m ∈ sent ((l ++ l').map (·.2)), TravelsOver t m :=
    fun m hm => by obtain ⟨g, hg⟩ := sent_given hh e2 hm; exact htr g m hg
  have main : Each IsReceived ((sent ((l ++ l').map (·.2))).take (ofConn i q.got).length) (ofConn i q.got) := by
    cases t with
    | rfc5425 => exact C53_in_order_partial _ f'.s e2.state (fun m hm => (hsent m hm).1 rfl) c r hc lenQueue er q hq hcr i k hi hwire
    | lfEnded => exact C72_in_order_partial .lfEnded 10 (.inl ⟨rfl, rfl⟩) _ f'.s e2.state (fun m hm => (hsent m hm).2 10 rfl) c r hc lenQueue er q hq hcr i k hi hwire
    | zeroEnded => exact C72_in_order_partial .zeroEnded 0 (.inr ⟨rfl, rfl⟩) _ f'.s e2.state (fun m hm => (hsent m hm).2 0 rfl) c r hc lenQueue er q hq hcr i k hi hwire
  exact each_trans (each_take k3 _) main (fun _ _ _ _ u v => saysOn_received u v)

/-- When every line has returned before `End` is called and `End` has returned: all the lines, all written. -/
theorem all_written_on {t : Transport} {L : Nat → Logger} {ss : Nat → Syslog} {out : Nat} (hmade : ∀ k, (L k).Made out (ss k))
    {prog : Nat → List (Nat × LogCall)} {h h' : List FEvent} {g0 : Nat} {f f' : FState}
    (hrun : ∀ g, RunsOn ss out (prog g) (givenBy g (h ++ .call g0 .endCall :: h' ++ [.ret g0])))
    (hok : ∀ g, ∀ m ∈ givenBy g (h ++ .call g0 .endCall :: h' ++ [.ret g0]), ∃ b, m.marshal = .ret (.ok b))
    (hdone : ∀ g, (returnedBy g h).length = (passingOn L (prog g)).length)
    (h1 : FHistory t h f) (h2 : FHistory t (h ++ .call g0 .endCall :: h' ++ [.ret g0]) f') (hone : called g0 h' = []) :
    ∃ a l, (∀ g, ofGoroutine g a = passingOn L (prog g)) ∧ Explains t (h ++ .call g0 .endCall :: h' ++ [.ret g0]) f' l ∧
      Each (fun c m => SaysOnMessage (L c.1) c.2 m) (a.map (·.2)) (sent (l.map (·.2))) ∧
      (frames t (l.map (·.2))).flatten <+: wire f'.s := by
  obtain ⟨l, l', e1, e2, e3⟩ := end_explained t h h' g0 f f' h1 h2 hone
  have has : h ++ .call g0 .endCall :: h' ++ [.ret g0] = h ++ (.call g0 .endCall :: h' ++ [.ret g0]) := by simp
  rw [has] at hrun hok h2 e2 ⊢
  obtain ⟨a, b, k1, k2, k3, k4⟩ := interleaved_on hmade hrun hok h2 e1 e2
  have ha : ∀ g, ofGoroutine g a = passingOn L (prog g) := by
    intro g
    obtain ⟨u, v, _⟩ := k1 g
    exact u.eq_of_length (Nat.le_antisymm u.length_le (by rw [← hdone g]; exact v))
  have hb : b = [] := by
    cases b with
    | nil => rfl
    | cons y b =>
      exfalso
      have := (k2 y.1).1.length_le
      rw [ofGoroutine_append, List.length_append, ha y.1] at this
      have e : ofGoroutine y.1 (y :: b) = y.2 :: ofGoroutine y.1 b := by simp [ofGoroutine]
      rw [e] at this
      simp only [List.length_cons] at this
      omega
  subst hb
  rw [List.append_nil] at k4
  refine ⟨a, l ++ l', ha, e2, k4, ?_⟩
  have hn : ∀ m, Event.send m ∉ rest (l ++ l') := by rw [e2.others]; exact no_other_send h2
  have hs : sent ((l ++ l').map (·.2)) = (sendsOf (l ++ l')).map (·.2) :=
    sent_sendsOf _ hn (fun m hm => by obtain ⟨g, hg⟩ := sent_given h2 e2 hm; exact hok g m hg)
  have hl := each_length k4
  have happ : sendsOf (l ++ l') = sendsOf l ++ sendsOf l' := by simp [sendsOf, List.filterMap_append]
  rw [hs, happ] at hl
  simp only [List.length_map, List.length_append, k3] at hl
  have hnil : sendsOf l' = [] := List.length_eq_zero_iff.mp (by omega)
  rw [frames_sendsOf t _ hn, happ, hnil, List.append_nil]
  exact e3

/-- **C118.** When the lines of all goroutines on all loggers have returned, then `End` was called and has returned, on a sender that had
to connect any number of times because writes failed that had accepted nothing, and everything that was written has arrived and been
received: `Receive` has returned, connection by connection, one message for each line of each goroutine that passes the threshold of its
logger, no other, saying what the line says on that logger, those of every goroutine in the order of its program. -/
theorem C118_complete_partial (t : Transport) (L : Nat → Logger) (ss : Nat → Syslog) (out : Nat) (hmade : ∀ k, (L k).Made out (ss k))
    (prog : Nat → List (Nat × LogCall)) (hl : ∀ g, ∀ c ∈ prog g, TravelsOn t (L c.1) c.2) (h h' : List FEvent) (g0 : Nat)
    (hrun : ∀ g, RunsOn ss out (prog g) (givenBy g (h ++ .call g0 .endCall :: h' ++ [.ret g0])))
    (hdone : ∀ g, (returnedBy g h).length = (passingOn L (prog g)).length)
    (hsize : t = .rfc5425 → ∀ g, ∀ m ∈ givenBy g (h ++ .call g0 .endCall :: h' ++ [.ret g0]), ∀ b, m.marshal = .ret (.ok b) →
      b.length < 2 ^ 62)
    (f f' : FState) (h1 : FHistory t h f) (h2 : FHistory t (h ++ .call g0 .endCall :: h' ++ [.ret g0]) f')
    (hone : called g0 h' = [])
    (hclean : ∀ nb y, FEvent.other (.write nb (some y)) ∈ h ++ .call g0 .endCall :: h' ++ [.ret g0] → nb = 0)
    (lenQueue : Nat) (er : List Recv.Event) (q : Recv.State) (hq : Recv.run t lenQueue Recv.init er = some q) (hcr : q.crashed = false)
    (j : Nat → Nat) (hj : ∀ (n : Nat) (c : Sender.Conn), f'.s.conns[n]? = some c → ∃ k, q.conns[j n]? = some k ∧
      arrived (readsOf (j n) er) = c.writes.flatten ∧ k.pending = [] ∧ ofConn (j n) q.pipeline = []) :
    ∃ a, (∀ g, ofGoroutine g a = passingOn L (prog g)) ∧ Each (fun c d => SaysOn (L c.1) c.2 d) (a.map (·.2))
      ((List.range f'.s.conns.length).flatMap fun n => ofConn (j n) q.got) := by
  have htr := runsOn_travels hmade hl hrun hsize
  obtain ⟨a, l, k1, k2, k3, k4⟩ := all_written_on hmade hrun (fun g m hm => travelsOver_marshal (htr g m hm)) hdone h1 h2 hone
  refine ⟨a, k1, ?_⟩
  have hsent : ∀ m ∈ sent (l.map (·.2)), TravelsOver t m :=
    fun m hm => by obtain ⟨g, hg⟩ := sent_given h2 k2 hm; exact htr g m hg
  have main : Each IsReceived (sent (l.map (·.2))) ((List.range f'.s.conns.length).flatMap fun n => ofConn (j n) q.got) := by
    cases t with
    | rfc5425 => exact C53_all_connections_partial _ f'.s k2.state (clean_explained k2 hclean) (fun m hm => (hsent m hm).1 rfl) k4 lenQueue er q hq hcr j hj
    | lfEnded => exact C72_all_connections_partial .lfEnded 10 (.inl ⟨rfl, rfl⟩) _ f'.s k2.state (clean_explained k2 hclean) (fun m hm => (hsent m hm).2 10 rfl) k4 lenQueue er q hq hcr j hj
    | zeroEnded => exact C72_all_connections_partial .zeroEnded 0 (.inr ⟨rfl, rfl⟩) _ f'.s k2.state (clean_explained k2 hclean) (fun m hm => (hsent m hm).2 0 rfl) k4 lenQueue er q hq hcr j hj
  exact each_trans k3 main (fun _ _ _ _ u v => saysOn_received u v)

/-- A logger on which `SubSyslog` was not called has a valid name: `TravelsOn` asks nothing of it. -/
theorem C118_without_sub (app : Bytes) (r : Bytes) (h : NamePath app [] [] r) : ValidField 48 r := by
  have key : ∀ ss ns, NamePath app ss ns r → ss = [] → ns = [] → ValidField 48 r := by
    intro ss ns h
    cases h with
    | new h => intro _ _; exact sanitised_validField (by decide) h
    | sub _ => intro hs; simp at hs
    | appName _ _ => intro _ hn; simp at hn
  exact key _ _ h rfl rfl

/-- **C118.** What `SubSyslog` returns can be given to several goroutines as it is: `Channel` need not be called on it before. -/
theorem C118_sub_ready (L : Logger) (out : Nat) (s0 s : Syslog) (h0 : Syslog.new L.host L.pid out L.p L.app = some s0)
    (h1 : s0.calls (L.subs.map Syslog.Call.sub) = .ret s) (hne : L.subs ≠ []) : L.Made out s := by
  have hkeep : ∀ (more : List Bytes) (u v : Syslog), u.calls (more.map Syslog.Call.sub) = .ret v → u.channels ≠ none ∨ more ≠ [] →
      v.channels ≠ none := by
    intro more
    induction more with
    | nil =>
      intro u v h hc
      simp only [List.map_nil, Syslog.calls, Out.ret.injEq] at h
      subst h
      rcases hc with hc | hc
      · exact hc
      · exact absurd rfl hc
    | cons n more ih =>
      intro u v h _
      simp only [List.map_cons, Syslog.calls, Syslog.call] at h
      cases e : u.subSyslog n with
      | ret u1 =>
        rw [e] at h
        refine ih u1 v h (.inl ?_)
        unfold Syslog.subSyslog at e
        simp only at e
        split at e
        · cases e
        · simp only [Out.ret.injEq] at e
          rw [← e]; simp
      | panic => rw [e] at h; cases h
      | hang => rw [e] at h; cases h
  have hch := hkeep _ _ _ h1 (.inr hne)
  have i1 := loggerInv_subs L.subs (loggerInv_new h0) h1
  simp only [List.nil_append] at i1
  have hr := sev_range L.p
  have hmin : s.minSev ≤ 7 := by rw [i1.minSev]; exact hr.2
  obtain ⟨l, f1, f2, f3⟩ := fill_eq s s.appname (s.minSev + 1).toNat (by omega)
  have hl : s.channels = some l := by
    cases hc : s.channels with
    | none => exact absurd hc hch
    | some l' =>
      have := i1.table l' hc
      rw [f1] at this
      exact this.symm
  have ht : s.table = some l := by
    unfold Syslog.table
    rw [hl]
  obtain ⟨c, e⟩ : ∃ c, l[(Priority.severity 0).toNat]? = some c := ⟨_, f3 (Priority.severity 0).toNat (by decide)⟩
  refine ⟨s0, s, 0, c, h0, h1, ?_⟩
  unfold Syslog.channel
  rw [ht]
  simp only
  rw [if_pos (sev_range 0).1, e]
  rw [← hl]

/-- **C118 fails** if a name given to `SubSyslog` makes the application name invalid: with the name `a b` the application name that is
received is `app/a`, the process identifier is `b`. -/
theorem C118_sub_violated : ∃ (L : Logger) (s : Syslog) (m : Message) (b : Bytes) (q : Recv.State) (d : Tok.Delivered), L.Made 0 s ∧
    (⟨0, [], none, .epoch, b!"x", none⟩ : LogCall).run s = .ret (s, [(0, m)]) ∧ LineTravelsOver .lfEnded ⟨0, [], none, .epoch, b!"x", none⟩ ∧
    m.marshal = .ret (.ok b) ∧
    Recv.run .lfEnded 0 Recv.init [.tau, .acceptOk, .read 0 { data := Transport.lfEnded.encode b }, .handoff 0] = some q ∧
    ofConn 0 q.got = [d] ∧ d.msg.procID = .ret b!"b" ∧ ¬ SaysOn L ⟨0, [], none, .epoch, b!"x", none⟩ d := by
  have key : (match Recv.run .lfEnded 0 Recv.init [.tau, .acceptOk,
      .read 0 { data := Transport.lfEnded.encode b!"<0>1 1970-01-01T00:00:00Z h app/a b 1 - - x" }, .handoff 0] with
    | some q => (match ofConn 0 q.got with
      | [d] => (match d.msg.procID with | .ret x => x == b!"b" | _ => false)
      | _ => false)
    | none => false) = true := by decide +kernel
  cases hq : Recv.run .lfEnded 0 Recv.init [.tau, .acceptOk,
      .read 0 { data := Transport.lfEnded.encode b!"<0>1 1970-01-01T00:00:00Z h app/a b 1 - - x" }, .handoff 0] with
  | none => rw [hq] at key; cases key
  | some q =>
    rw [hq] at key
    simp only at key
    split at key
    · next d hd =>
      split at key
      · next x hx =>
        have hb : x = b!"b" := by simpa using key
        refine ⟨⟨some b!"h", 1, 7, b!"app", [b!"a b"]⟩, _, _, _, q, d, ⟨_, _, 0, _, rfl, by with_unfolding_all rfl, by with_unfolding_all rfl⟩,
          by with_unfolding_all rfl, ⟨nofun, ?_⟩, by decide +kernel, hq, hd, by rw [hx, hb], fun h => ?_⟩
        · intro z hz
          cases hz
          refine ⟨by constructor <;> decide +kernel, rfl, ?_⟩
          intro t ht
          rw [trim_unique ht]; decide +kernel
        · have := h.procID
          rw [hx, hb] at this
          revert this
          decide +kernel
      · cases key
    · cases key

/-! The hypotheses are met by two goroutines that log at the same time on three loggers, the second one overtaking the first. -/

/-- The loggers: `New(…, 166, "app")`, its `SubSyslog("db")`, and one for mail that passes severities up to 4. -/
def demoLoggers : Nat → Logger
  | 0 => ⟨some b!"host", 42, 166, b!"app", []⟩
  | 1 => ⟨some b!"host", 42, 166, b!"app", [b!"db"]⟩
  | _ => ⟨some b!"host", 42, 20, b!"mail", []⟩

/-- The objects. -/
def demoObjects : Nat → Syslog
  | 0 => demoSyslog
  | 1 => match (Syslog.new (some b!"host") 42 3 166 b!"app").get rfl |>.subSyslog b!"db" with
    | .ret s => s
    | _ => demoSyslog
  | _ => { (Syslog.new (some b!"host") 42 3 20 b!"mail").get rfl with channels := ((Syslog.new (some b!"host") 42 3 20 b!"mail").get rfl).table }

/-- The programs: goroutine 1 logs two lines on the first logger, one of which is filtered out, goroutine 2 logs one line on the mail logger,
which is filtered out, and one on the second logger. What they give to `Send` is `demoOne` and `demoTwo`. -/
def demoProgsOn : Nat → List (Nat × LogCall)
  | 1 => [(0, ⟨7, [], none, demoNow, b!"filtered", some []⟩), (0, ⟨0, [], none, demoNow, b!"one", none⟩)]
  | 2 => [(2, ⟨5, [], none, demoNow, b!"filtered", none⟩), (1, ⟨5, [], some b!"ID47", demoNow, b!"two", some (exampleMsg b!"").sd⟩)]
  | _ => []

theorem demoLoggers_mail : (⟨some b!"host", 42, 20, b!"mail", []⟩ : Logger).Made 3
    { (Syslog.new (some b!"host") 42 3 20 b!"mail").get rfl with channels := ((Syslog.new (some b!"host") 42 3 20 b!"mail").get rfl).table } :=
  ⟨_, _, 0, _, rfl, rfl, by with_unfolding_all rfl⟩

theorem demoLoggers_made (k : Nat) : (demoLoggers k).Made 3 (demoObjects k) := by
  match k with
  | 0 => exact ⟨_, _, 0, _, rfl, rfl, by with_unfolding_all rfl⟩
  | 1 =>
    have e : ((Syslog.new (some b!"host") 42 3 166 b!"app").get rfl).subSyslog b!"db" = .ret (demoObjects 1) := by with_unfolding_all rfl
    refine ⟨(Syslog.new (some b!"host") 42 3 166 b!"app").get rfl, demoObjects 1, 0, _, rfl, ?_, by with_unfolding_all rfl⟩
    show (do let s ← ((Syslog.new (some b!"host") 42 3 166 b!"app").get rfl).subSyslog b!"db"; s.calls []) = _
    rw [e]; rfl
  | n + 2 => exact demoLoggers_mail

example : RunsOn demoObjects 3 (demoProgsOn 1) [demoOne] ∧ RunsOn demoObjects 3 (demoProgsOn 2) [demoTwo] := by
  refine ⟨⟨[demoOne], ?_, List.prefix_rfl⟩, ⟨[demoTwo], ?_, List.prefix_rfl⟩⟩
  · obtain ⟨ms, h1, _⟩ := logOn_stable demoLoggers_made (demoProgsOn 1)
    have h2 : (match logOn demoObjects (demoProgsOn 1) with | .ret (_, x) => some x | _ => none) = some [(3, demoOne)] := by
      with_unfolding_all rfl
    rw [h1] at h2 ⊢
    simp only [Option.some.injEq] at h2
    rw [h2]; rfl
  · obtain ⟨ms, h1, _⟩ := logOn_stable demoLoggers_made (demoProgsOn 2)
    have h2 : (match logOn demoObjects (demoProgsOn 2) with | .ret (_, x) => some x | _ => none) = some [(3, demoTwo)] := by
      with_unfolding_all rfl
    rw [h1] at h2 ⊢
    simp only [Option.some.injEq] at h2
    rw [h2]; rfl

example : (∀ g, ofGoroutine g [(1, (0, ⟨0, [], none, demoNow, b!"one", none⟩))] = if g = 1 then passingOn demoLoggers (demoProgsOn 1) else []) ∧
    (passingOn demoLoggers (demoProgsOn 2)).length = 1 := by
  refine ⟨fun g => ?_, by decide +kernel⟩
  by_cases h : g = 1
  · subst h; rfl
  · simp [ofGoroutine, Ne.symm h, h]

theorem demoLoggers_name (k : Nat) (r : Bytes) (h : NamePath (demoLoggers k).app (demoLoggers k).subs [] r) : ValidField 48 r := by
  match k with
  | 0 => exact C118_without_sub _ r h
  | 1 =>
    have key : ∀ ss ns, NamePath b!"app" ss ns r → ss = [b!"db"] → ns = [] → ValidField 48 r := by
      intro ss ns h0
      cases h0 with
      | new _ => intro hs _; simp at hs
      | @sub ss' n' r' h2 =>
        intro hs _
        obtain ⟨e1, hn⟩ : ss' = [] ∧ n' = b!"db" := by simpa using (List.append_inj' (t₂ := [b!"db"]) (s₂ := []) hs rfl)
        subst e1
        subst hn
        have : ∀ ss ns x, NamePath b!"app" ss ns x → ss = [] → ns = [] → x = b!"app" := by
          intro ss ns x h
          cases h with
          | new h => intro _ _; rw [sanitised_unique h (validator_sanitised b!"app" 48)]; decide +kernel
          | sub _ => intro hs; simp at hs
          | appName _ _ => intro _ hn; simp at hn
        rw [this _ _ _ h2 rfl rfl]
        decide +kernel
      | appName _ _ => intro _ hn; simp at hn
    exact key _ _ h rfl rfl
  | n + 2 => exact C118_without_sub b!"mail" r h

example : ∀ g, ∀ c ∈ demoProgsOn g, TravelsOn .rfc5425 (demoLoggers c.1) c.2 := by
  have hv : demoNow.Valid := by constructor <;> decide +kernel
  have hpid : ∀ k, (demoLoggers k).pid < 2 ^ 63 := by
    intro k
    match k with
    | 0 => decide
    | 1 => decide
    | _ + 2 => exact (by decide : (42 : Nat) < 2 ^ 63)
  intro g c hc
  match g with
  | 0 => cases hc
  | 1 =>
    simp only [demoProgsOn, List.mem_cons, List.not_mem_nil, or_false] at hc
    rcases hc with rfl | rfl <;>
      exact ⟨hpid _, ⟨fun _ => ⟨hv, ⟨[], rfl, by simp⟩, fun h => absurd rfl h⟩, fun _ h => h.elim⟩, fun _ => demoLoggers_name _⟩
  | 2 =>
    simp only [demoProgsOn, List.mem_cons, List.not_mem_nil, or_false] at hc
    rcases hc with rfl | rfl
    · exact ⟨hpid _, ⟨fun _ => ⟨hv, ⟨[], rfl, by simp⟩, fun h => absurd rfl h⟩, fun _ h => h.elim⟩, fun _ => demoLoggers_name _⟩
    · exact ⟨hpid _, ⟨fun _ => ⟨hv, ⟨_, exampleMsg_sd b!""⟩, fun _ t ht => freeText_plain fun hm => absurd (isTrimOf_sub ht _ hm) (by decide +kernel)⟩,
        fun _ h => h.elim⟩, fun _ => demoLoggers_name _⟩
  | n + 3 => cases hc

end Syslog5424
