import Verif.Model.Syslog
import Verif.Lemmas.Priority
import Verif.Lemmas.Text
import Verif.Props.Fields
/-! # Properties C29 to C33: `Syslog` and `Channel` -/
namespace Syslog5424
open Spec

/-! ## the table of channels -/

/-- The table computed by `Channel` and `SubSyslog`. -/
theorem fill_eq (s : Syslog) (app : Bytes) (n : Nat) (hn : n ≤ 8) :
    ∃ l, s.fill app n Syslog.nulls = some l ∧ l.length = 8 ∧
      ∀ i : Nat, i < 8 → l[i]? = some (if i < n then
        Channel.tru ⟨Priority.or s.facility i, s.hostname, s.pid, app, b!"-", s.output⟩ else Channel.devNull) := by
  induction n with
  | zero =>
    refine ⟨Syslog.nulls, rfl, rfl, ?_⟩
    intro i hi
    rw [if_neg (by omega)]
    show (List.replicate 8 Channel.devNull)[i]? = _
    rw [List.getElem?_replicate, if_pos hi]
  | succ n ih =>
    obtain ⟨l, h1, h2, h3⟩ := ih (by omega)
    refine ⟨l.set n (.tru ⟨Priority.or s.facility n, s.hostname, s.pid, app, b!"-", s.output⟩), ?_, ?_, ?_⟩
    · simp only [Syslog.fill, h1, Option.bind_eq_bind, Option.bind_some]
      rw [if_pos (by omega)]
    · simp [h2]
    · intro i hi
      rw [List.getElem?_set]
      by_cases he : n = i
      · subst he
        rw [if_pos rfl, if_pos (by omega), if_pos (by omega)]
      · rw [if_neg he, h3 i hi]
        by_cases hlt : i < n
        · rw [if_pos hlt, if_pos (by omega)]
        · rw [if_neg hlt, if_neg (by omega)]

/-- The state of a `Syslog` created with priority `p` and writing to `out`, whose messages carry the
application name `app`. -/
structure SysInv (p : Int) (out : Nat) (app : Bytes) (s : Syslog) : Prop where
  facility : s.facility = Priority.facility p
  minSev : s.minSev = Priority.severity p
  output : s.output = out
  appname : s.appname = app
  hostname : ValidField 255 s.hostname
  pid : ValidField 128 s.pid
  channels : ∀ l, s.channels = some l → l.length = 8 ∧ ∀ i : Nat, i < 8 → ∃ host pid, ValidField 255 host ∧ ValidField 128 pid ∧
    l[i]? = some (if (i : Int) ≤ Priority.severity p then
      Channel.tru ⟨Priority.facility p + i, host, pid, app, b!"-", out⟩ else Channel.devNull)

theorem sev_range (p : Int) : 0 ≤ Priority.severity p ∧ Priority.severity p ≤ 7 := by
  rw [severity_eq]; omega

theorem fac_range (p : Int) : Priority.facility p % 8 = 0 ∧ 0 ≤ Priority.facility p ∧ Priority.facility p ≤ 248 := by
  rw [facility_eq]; omega

/-- A freshly filled table. -/
theorem fill_inv {p : Int} {out : Nat} {s : Syslog} (hf : s.facility = Priority.facility p)
    (hm : s.minSev = Priority.severity p) (ho : s.output = out) (hh : ValidField 255 s.hostname) (hp : ValidField 128 s.pid)
    (app : Bytes) :
    ∃ l, s.fill app (s.minSev + 1).toNat Syslog.nulls = some l ∧ l.length = 8 ∧
      ∀ i : Nat, i < 8 → ∃ host pid, ValidField 255 host ∧ ValidField 128 pid ∧
        l[i]? = some (if (i : Int) ≤ Priority.severity p then
          Channel.tru ⟨Priority.facility p + i, host, pid, app, b!"-", out⟩ else Channel.devNull) := by
  have hr := sev_range p
  have hfr := fac_range p
  obtain ⟨l, h1, h2, h3⟩ := fill_eq s app (s.minSev + 1).toNat (by rw [hm]; omega)
  refine ⟨l, h1, h2, ?_⟩
  intro i hi
  refine ⟨s.hostname, s.pid, hh, hp, ?_⟩
  rw [h3 i hi, hf, ho]
  congr 1
  by_cases hc : (i : Int) ≤ Priority.severity p
  · rw [if_pos hc, if_pos (by rw [hm]; omega), or_eq_add hfr.1 hfr.2.1 (by omega) (by omega) (by omega)]
  · rw [if_neg hc, if_neg (by rw [hm]; omega)]

/-- The application name of the messages after the calls `h`: `SubSyslog` appends to it. -/
def Spec.appPath (app : Bytes) : List Syslog.Call → Bytes
  | [] => app
  | .sub name :: r => appPath (if app = b!"-" then name else app ++ b!"/" ++ name) r
  | _ :: r => appPath app r

theorem channel_inv {p : Int} {out : Nat} {app : Bytes} {s : Syslog} (h : SysInv p out app s) (sev : Int) :
    ∃ s' c, s.channel sev = .ret (s', c) ∧ SysInv p out app s' ∧
      ∃ host pid, ValidField 255 host ∧ ValidField 128 pid ∧
        c = if Priority.severity sev ≤ Priority.severity p then
          .tru ⟨Priority.facility p + Priority.severity sev, host, pid, app, b!"-", out⟩ else .devNull := by
  have hs := sev_range sev
  have htab : ∃ l, s.table = some l ∧ l.length = 8 ∧
      ∀ i : Nat, i < 8 → ∃ host pid, ValidField 255 host ∧ ValidField 128 pid ∧
        l[i]? = some (if (i : Int) ≤ Priority.severity p then
          Channel.tru ⟨Priority.facility p + i, host, pid, app, b!"-", out⟩ else Channel.devNull) := by
    unfold Syslog.table
    cases hc : s.channels with
    | some l => exact ⟨l, rfl, h.channels l hc⟩
    | none =>
      simp only
      rw [h.appname]
      exact fill_inv h.facility h.minSev h.output h.hostname h.pid app
  obtain ⟨l, h1, h2, h3⟩ := htab
  obtain ⟨host, pid, v1, v2, h4⟩ := h3 (Priority.severity sev).toNat (by omega)
  refine ⟨{ s with channels := some l }, _, ?_, ⟨h.facility, h.minSev, h.output, h.appname, h.hostname, h.pid, ?_⟩,
    host, pid, v1, v2, rfl⟩
  · unfold Syslog.channel
    rw [h1]
    simp only
    rw [if_pos hs.1, h4]
    have e : (((Priority.severity sev).toNat : Nat) : Int) = Priority.severity sev := by omega
    rw [e]
  · intro l' hl'
    simp only [Option.some.injEq] at hl'
    subst hl'
    exact ⟨h2, h3⟩

theorem call_inv {p : Int} {out : Nat} {app : Bytes} {s : Syslog} (h : SysInv p out app s) (c : Syslog.Call) :
    ∃ s', s.call c = .ret s' ∧ SysInv p out (appPath app [c]) s' := by
  cases c with
  | channel sev =>
    obtain ⟨s', c, h1, h2, _⟩ := channel_inv h sev
    refine ⟨s', ?_, h2⟩
    unfold Syslog.call
    simp only
    rw [h1]; rfl
  | testMode =>
    refine ⟨s.testMode, rfl, h.facility, h.minSev, h.output, h.appname, ?_, ?_, h.channels⟩
    · show ValidField 255 b!"localhost"; decide +kernel
    · show ValidField 128 b!"1234"; decide +kernel
  | sub name =>
    obtain ⟨l, h1, h2, h3⟩ := fill_inv h.facility h.minSev h.output h.hostname h.pid
      (if s.appname = b!"-" then name else s.appname ++ b!"/" ++ name)
    refine ⟨⟨s.facility, s.hostname, s.pid, if s.appname = b!"-" then name else s.appname ++ b!"/" ++ name, some l, s.output, s.minSev⟩,
      ?_, h.facility, h.minSev, h.output, ?_, h.hostname, h.pid, ?_⟩
    · unfold Syslog.call Syslog.subSyslog
      simp only
      rw [h1]
    · simp only [appPath, h.appname]
    · intro l' hl'
      simp only [Option.some.injEq] at hl'
      subst hl'
      simp only [appPath, ← h.appname]
      exact ⟨h2, h3⟩

theorem calls_inv {p : Int} {out : Nat} {app : Bytes} {s : Syslog} (h : SysInv p out app s) (cs : List Syslog.Call) :
    ∃ s', s.calls cs = .ret s' ∧ SysInv p out (appPath app cs) s' := by
  induction cs generalizing s app with
  | nil => exact ⟨s, rfl, h⟩
  | cons c r ih =>
    obtain ⟨s1, h1, h2⟩ := call_inv h c
    obtain ⟨s2, h3, h4⟩ := ih h2
    refine ⟨s2, ?_, ?_⟩
    · unfold Syslog.calls
      rw [h1]
      exact h3
    · cases c <;> exact h4

theorem natDec_validPid (n : Nat) (h : n < 2 ^ 63) : ValidField 128 (natDec n) := by
  refine ⟨natDec_length_pos n, ?_, ?_⟩
  · have := natDec_length_le (n := n) (k := 19) (by decide) (by omega)
    omega
  · intro b hb
    have := natDec_isDigit n b hb
    simp only [IsDigit] at this
    simp only [IsPrintUsAscii]; omega

theorem new_inv {host : Option Bytes} {pid out : Nat} {p : Int} {app : Bytes} {s : Syslog} (hpid : pid < 2 ^ 63)
    (h : Syslog.new host pid out p app = some s) : SysInv p out (validApp app) s := by
  unfold Syslog.new at h
  simp only at h
  split at h
  · simp at h
  · simp only [Option.some.injEq] at h
    subst h
    refine ⟨rfl, rfl, rfl, rfl, validator_valid _ (by decide), ?_, by simp⟩
    simp only
    rw [if_neg (natDec_ne_nil pid)]
    exact natDec_validPid pid hpid

/-! ## C29 -/

/-- C29: `New` fails exactly on an empty application name. -/
theorem C29_new (host : Option Bytes) (pid out : Nat) (p : Int) (app : Bytes) :
    Syslog.new host pid out p app = none ↔ app = [] := by
  unfold Syslog.new
  simp only
  split <;> simp [*]

/-- C29: after any sequence of calls on a `Syslog` created with priority `p` (and on its sub-syslogs), none of
which panics, `Channel(sev)` is `/dev/null` exactly when the severity of `sev` is greater (less severe) than the
threshold, and then nothing is sent; otherwise each `Write` and each `Log` sends one message to the sender given
to `New`. -/
theorem C29_filter (host : Option Bytes) (pid out : Nat) (p : Int) (app : Bytes) (hpid : pid < 2 ^ 63) (s0 : Syslog)
    (h0 : Syslog.new host pid out p app = some s0) (history : List Syslog.Call) :
    ∃ s, s0.calls history = .ret s ∧ ∀ sev : Int, ∃ s' c, s.channel sev = .ret (s', c) ∧
      (c.isDevNull = true ↔ p % 8 < sev % 8) ∧
      ∀ now d sd, if p % 8 < sev % 8 then (c.write now d).2 = [] ∧ c.log now d sd = []
        else ∃ m m', (c.write now d).2 = [(out, m)] ∧ c.log now d sd = [(out, m')] := by
  obtain ⟨s, h1, h2⟩ := calls_inv (new_inv hpid h0) history
  refine ⟨s, h1, fun sev => ?_⟩
  obtain ⟨s', c, h3, _, host', pid', _, _, hc⟩ := channel_inv h2 sev
  refine ⟨s', c, h3, ?_⟩
  rw [severity_eq, severity_eq] at hc
  by_cases hcase : sev % 8 ≤ p % 8
  · rw [if_pos hcase] at hc
    subst hc
    refine ⟨?_, ?_⟩
    · simp only [Channel.isDevNull]; constructor
      · simp
      · intro h; omega
    · intro now d sd
      rw [if_neg (by omega)]
      exact ⟨_, _, rfl, rfl⟩
  · rw [if_neg hcase] at hc
    subst hc
    refine ⟨?_, ?_⟩
    · simp only [Channel.isDevNull]; constructor
      · intro; omega
      · simp
    · intro now d sd
      rw [if_pos (by omega)]
      exact ⟨rfl, rfl⟩

example : ∃ s0, Syslog.new (some b!"h") 1 0 (8 + 4) b!"app" = some s0 ∧
    s0.calls [.channel 7, .testMode, .sub b!"x", .channel 3] ≠ .panic := ⟨_, rfl, by decide +kernel⟩

/-! ## C30 -/

/-- The calls that derive a channel from another one. -/
inductive Derive where
  | appName (x : Bytes)
  | msgid (x : Bytes)

def Derive.run (c : Channel) : List Derive → Channel
  | [] => c
  | .appName x :: r => run (c.appName x) r
  | .msgid x :: r => run (c.msgid x) r

/-- The attributes that derivation keeps. -/
theorem derive_keeps (ds : List Derive) (c : Channel) (P : ChanAttr → Prop)
    (hP : ∀ a b : ChanAttr, P a → b.priority = a.priority → b.hostname = a.hostname → b.pid = a.pid → b.output = a.output → P b)
    (h : ∀ a, c = .msg a ∨ c = .tru a → P a) : ∀ a, Derive.run c ds = .msg a ∨ Derive.run c ds = .tru a → P a := by
  induction ds generalizing c with
  | nil => exact h
  | cons d r ih =>
    cases d with
    | appName x =>
      apply ih
      intro a ha
      cases c with
      | devNull => simp [Channel.appName] at ha
      | msg b => simp [Channel.appName] at ha
      | tru b =>
        simp only [Channel.appName, reduceCtorEq, false_or, Channel.tru.injEq] at ha
        exact hP b a (h b (Or.inr rfl)) (by rw [← ha]) (by rw [← ha]) (by rw [← ha]) (by rw [← ha])
    | msgid x =>
      apply ih
      intro a ha
      cases c with
      | devNull => simp [Channel.msgid] at ha
      | msg b => simp [Channel.msgid] at ha
      | tru b =>
        simp only [Channel.msgid, reduceCtorEq, or_false, Channel.msg.injEq] at ha
        exact hP b a (h b (Or.inr rfl)) (by rw [← ha]) (by rw [← ha]) (by rw [← ha]) (by rw [← ha])

/-- Everything that a channel sends carries its attributes. -/
theorem sent_attr (c : Channel) (now : Time) (d pre loc : Bytes) (sd : List SD) (x : Nat × Message)
    (hx : x ∈ (c.write now d).2 ∨ x ∈ c.log now d sd ∨ x ∈ c.loggerPrint now pre loc d) :
    ∃ a, (c = .msg a ∨ c = .tru a) ∧ x.1 = a.output ∧ x.2.prio = a.priority ∧ x.2.hostname = a.hostname ∧
      x.2.appname = a.appname ∧ x.2.procid = a.pid ∧ x.2.msgid = a.msgid ∧ x.2.timestamp = now := by
  cases c with
  | devNull => simp [Channel.write, Channel.log, Channel.loggerPrint] at hx
  | msg a =>
    refine ⟨a, Or.inl rfl, ?_⟩
    simp only [Channel.write, Channel.log, Channel.loggerPrint, List.mem_singleton] at hx
    rcases hx with rfl | rfl | rfl
    · simp [Channel.forge, Message.forge]
    · by_cases h : sd.length > 0 <;> simp only [h, if_true, if_false] <;> simp [Channel.forge, Message.forge, Message.addSD]
    · simp [Channel.forge, Message.forge]
  | tru a =>
    refine ⟨a, Or.inr rfl, ?_⟩
    simp only [Channel.write, Channel.log, Channel.loggerPrint, List.mem_singleton] at hx
    rcases hx with rfl | rfl | rfl
    · simp [Channel.forge, Message.forge]
    · by_cases h : sd.length > 0 <;> simp only [h, if_true, if_false] <;> simp [Channel.forge, Message.forge, Message.addSD]
    · simp [Channel.forge, Message.forge]

/-- C30: whatever calls were made before, and however the channel was derived, every message sent through
`Channel(sev)` of a `Syslog` created with priority `p` has the facility of `p` and the severity of `sev`, goes to
the sender given to `New` and carries the current time. -/
theorem C30_priority (host : Option Bytes) (pid out : Nat) (p : Int) (app : Bytes) (hpid : pid < 2 ^ 63) (s0 s s' : Syslog)
    (h0 : Syslog.new host pid out p app = some s0) (history : List Syslog.Call) (hs : s0.calls history = .ret s)
    (sev : Int) (c : Channel) (hc : s.channel sev = .ret (s', c)) (ds : List Derive) (now : Time) (d pre loc : Bytes) (sd : List SD)
    (x : Nat × Message) (hx : x ∈ ((Derive.run c ds).write now d).2 ∨ x ∈ (Derive.run c ds).log now d sd ∨
      x ∈ (Derive.run c ds).loggerPrint now pre loc d) :
    x.1 = out ∧ x.2.timestamp = now ∧ x.2.prio = (p % 256 / 8 * 8 + sev % 8 : Int) ∧
      Priority.facility x.2.prio = Priority.facility p ∧ Priority.severity x.2.prio = Priority.severity sev := by
  obtain ⟨s1, h1, h2⟩ := calls_inv (new_inv hpid h0) history
  rw [hs] at h1
  simp only [Out.ret.injEq] at h1
  subst h1
  obtain ⟨s2, c2, h3, _, host', pid', _, _, hc2⟩ := channel_inv h2 sev
  rw [hc] at h3
  simp only [Out.ret.injEq, Prod.mk.injEq] at h3
  obtain ⟨rfl, rfl⟩ := h3
  obtain ⟨a, ha, h4, h5, _, _, _, _, h6⟩ := sent_attr _ now d pre loc sd x hx
  have key := derive_keeps ds c (fun a => a.priority = (Priority.facility p + Priority.severity sev : Int) ∧ a.output = out)
    (by intro a b hab e1 _ _ e4; rw [e1, e4]; exact hab)
    (by
      intro b hb
      rw [hc2] at hb
      by_cases hle : Priority.severity sev ≤ Priority.severity p
      · rw [if_pos hle] at hb
        simp only [reduceCtorEq, false_or, Channel.tru.injEq] at hb
        subst hb; exact ⟨rfl, rfl⟩
      · rw [if_neg hle] at hb; simp at hb) a ha
  have hprio : x.2.prio = (p % 256 / 8 * 8 + sev % 8 : Int) := by
    rw [h5, key.1, facility_eq, severity_eq]
  refine ⟨by rw [h4]; exact key.2, h6, hprio, ?_, ?_⟩
  · rw [hprio, facility_eq, facility_eq]; omega
  · rw [hprio, severity_eq, severity_eq]; omega

/-! ## C31 -/

/-- C31 (partial): on a live channel that comes from `Channel` and `AppName` calls, `AppName(x)` gives a live
channel whose messages differ only by the application name: `x` if it was `-`, else the old one, `/` and `x`,
sanitised; and `Msgid(x)` a live channel whose messages differ only by the msgid: `x` sanitised. Missing: the
channels given by `Msgid`, see `C31_msgid_violated`. -/
theorem C31_derive_partial (a : ChanAttr) (x : Bytes) :
    (∃ app, IsSanitised 48 (if a.appname = b!"-" then x else a.appname ++ b!"/" ++ x) app ∧
      (Channel.tru a).appName x = .tru { a with appname := app } ∧
      ∀ now d, ∃ m, ((Channel.tru a).write now d).2 = [(a.output, m)] ∧
        (((Channel.tru a).appName x).write now d).2 = [(a.output, { m with appname := app })]) ∧
    (∃ id, IsSanitised 32 x id ∧
      ((Channel.tru a).msgid x).isDevNull = false ∧
      ∀ now d, ∃ m, ((Channel.tru a).write now d).2 = [(a.output, m)] ∧
        (((Channel.tru a).msgid x).write now d).2 = [(a.output, { m with msgid := id })]) := by
  refine ⟨⟨_, validator_sanitised _ 48, rfl, fun now d => ⟨_, rfl, rfl⟩⟩, ⟨_, validator_sanitised x 32, rfl, fun now d => ⟨_, rfl, rfl⟩⟩⟩

/-- C31: every live channel returned by `Syslog.Channel`, and everything derived from it by `AppName` alone,
satisfies the hypothesis of `C31_derive_partial`. -/
theorem C31_reach (host : Option Bytes) (pid out : Nat) (p : Int) (app : Bytes) (hpid : pid < 2 ^ 63) (s0 s s' : Syslog)
    (h0 : Syslog.new host pid out p app = some s0) (history : List Syslog.Call) (hs : s0.calls history = .ret s)
    (sev : Int) (c : Channel) (hc : s.channel sev = .ret (s', c)) (hlive : c.isDevNull = false) (names : List Bytes) :
    ∃ a, names.foldl Channel.appName c = .tru a := by
  obtain ⟨s1, h1, h2⟩ := calls_inv (new_inv hpid h0) history
  rw [hs] at h1
  simp only [Out.ret.injEq] at h1
  subst h1
  obtain ⟨s2, c2, h3, _, host', pid', _, _, hc2⟩ := channel_inv h2 sev
  rw [hc] at h3
  simp only [Out.ret.injEq, Prod.mk.injEq] at h3
  obtain ⟨rfl, rfl⟩ := h3
  have : ∃ a, c = .tru a := by
    by_cases hle : Priority.severity sev ≤ Priority.severity p
    · rw [if_pos hle] at hc2; exact ⟨_, hc2⟩
    · rw [if_neg hle] at hc2; subst hc2; simp [Channel.isDevNull] at hlive
  clear hc hc2 hlive
  induction names generalizing c with
  | nil => exact this
  | cons x r ih =>
    obtain ⟨a, rfl⟩ := this
    exact ih _ ⟨_, rfl⟩

/-- C31: on `/dev/null` both give `/dev/null`. -/
theorem C31_devnull (x : Bytes) : (Channel.devNull.appName x) = .devNull ∧ (Channel.devNull.msgid x) = .devNull := ⟨rfl, rfl⟩

/-- C31 is violated: `AppName` and `Msgid` of a live channel obtained with `Msgid` give `/dev/null`: every
message written there is silently dropped. -/
theorem C31_msgid_violated (a : ChanAttr) (x y : Bytes) :
    ((Channel.tru a).msgid x).isDevNull = false ∧
    (((Channel.tru a).msgid x).appName y).isDevNull = true ∧ (((Channel.tru a).msgid x).msgid y).isDevNull = true ∧
    ∀ now d, ((((Channel.tru a).msgid x).appName y).write now d).2 = [] ∧ ((((Channel.tru a).msgid x).msgid y).write now d).2 = [] :=
  ⟨rfl, rfl, rfl, fun _ _ => ⟨rfl, rfl⟩⟩

/-! ## C32 -/

/-- Valid header fields. -/
structure Spec.ValidHeader (m : Message) : Prop where
  host : ValidField 255 m.hostname
  app : ValidField 48 m.appname
  pid : ValidField 128 m.procid
  mid : ValidField 32 m.msgid

/-- C32 (partial): if the application name built by the `SubSyslog` calls is valid (in particular if there are no
such calls, `C32_without_sub`), everything sent through any channel has valid header fields. Missing: invalid
names given to `SubSyslog`, see `C32_sub_violated`. -/
theorem C32_valid_partial (host : Option Bytes) (pid out : Nat) (p : Int) (app : Bytes) (hpid : pid < 2 ^ 63) (s0 s s' : Syslog)
    (h0 : Syslog.new host pid out p app = some s0) (history : List Syslog.Call) (hs : s0.calls history = .ret s)
    (name : Bytes) (hname : IsSanitised 48 app name) (happ : ValidField 48 (appPath name history))
    (sev : Int) (c : Channel) (hc : s.channel sev = .ret (s', c)) (ds : List Derive) (now : Time) (d pre loc : Bytes) (sd : List SD)
    (x : Nat × Message) (hx : x ∈ ((Derive.run c ds).write now d).2 ∨ x ∈ (Derive.run c ds).log now d sd ∨
      x ∈ (Derive.run c ds).loggerPrint now pre loc d) : ValidHeader x.2 := by
  obtain rfl : name = validApp app := sanitised_unique hname (validator_sanitised app 48)
  obtain ⟨s1, h1, h2⟩ := calls_inv (new_inv hpid h0) history
  rw [hs] at h1
  simp only [Out.ret.injEq] at h1
  subst h1
  obtain ⟨s2, c2, h3, _, host', pid', hv1, hv2, hc2⟩ := channel_inv h2 sev
  rw [hc] at h3
  simp only [Out.ret.injEq, Prod.mk.injEq] at h3
  obtain ⟨rfl, rfl⟩ := h3
  obtain ⟨a, ha, _, _, e1, e2, e3, e4, _⟩ := sent_attr _ now d pre loc sd x hx
  have key : ∀ a, Derive.run c ds = .msg a ∨ Derive.run c ds = .tru a →
      ValidField 255 a.hostname ∧ ValidField 48 a.appname ∧ ValidField 128 a.pid ∧ ValidField 32 a.msgid := by
    have base : ∀ a, c = .msg a ∨ c = .tru a →
        ValidField 255 a.hostname ∧ ValidField 48 a.appname ∧ ValidField 128 a.pid ∧ ValidField 32 a.msgid := by
      intro b hb
      rw [hc2] at hb
      by_cases hle : Priority.severity sev ≤ Priority.severity p
      · rw [if_pos hle] at hb
        simp only [reduceCtorEq, false_or, Channel.tru.injEq] at hb
        subst hb
        exact ⟨hv1, happ, hv2, by show ValidField 32 b!"-"; decide⟩
      · rw [if_neg hle] at hb; simp at hb
    clear hx hc hc2 ha
    generalize hcc : c = cc at base
    clear hcc
    induction ds generalizing cc with
    | nil => exact base
    | cons e r ih =>
      cases e with
      | appName x =>
        apply ih
        intro a ha
        cases cc with
        | devNull => simp [Channel.appName] at ha
        | msg b => simp [Channel.appName] at ha
        | tru b =>
          simp only [Channel.appName, reduceCtorEq, false_or, Channel.tru.injEq] at ha
          obtain ⟨g1, g2, g3, g4⟩ := base b (Or.inr rfl)
          subst ha
          exact ⟨g1, validator_valid _ (by decide), g3, g4⟩
      | msgid x =>
        apply ih
        intro a ha
        cases cc with
        | devNull => simp [Channel.msgid] at ha
        | msg b => simp [Channel.msgid] at ha
        | tru b =>
          simp only [Channel.msgid, reduceCtorEq, or_false, Channel.msg.injEq] at ha
          obtain ⟨g1, g2, g3, g4⟩ := base b (Or.inr rfl)
          subst ha
          exact ⟨g1, g2, g3, validator_valid _ (by decide)⟩
  obtain ⟨g1, g2, g3, g4⟩ := key a ha
  exact ⟨by rw [e1]; exact g1, by rw [e2]; exact g2, by rw [e3]; exact g3, by rw [e4]; exact g4⟩

/-- C32: without `SubSyslog` the hypothesis of `C32_valid_partial` always holds. -/
theorem C32_without_sub (app name : Bytes) (hname : IsSanitised 48 app name) (history : List Syslog.Call)
    (h : ∀ c ∈ history, ∀ n, c ≠ .sub n) : ValidField 48 (appPath name history) := by
  obtain rfl : name = validApp app := sanitised_unique hname (validator_sanitised app 48)
  have : appPath (validApp app) history = validApp app := by
    induction history with
    | nil => rfl
    | cons c r ih =>
      have hr := ih fun x hx => h x (by simp [hx])
      cases c with
      | channel => exact hr
      | testMode => exact hr
      | sub n => exact absurd rfl (h _ (by simp) n)
  rw [this]
  exact validator_valid _ (by decide)

/-- C32 is violated: `SubSyslog` does not sanitise the name: a space in it shifts all the following fields, an
empty one on top of `-` gives an empty field, and long ones exceed 48 bytes. -/
theorem C32_sub_violated :
    ∃ s0 s1 s2 s3 c1 c2 m1 m2,
      Syslog.new none 1 0 7 b!"-" = some s0 ∧
      s0.subSyslog b!"a b" = .ret s1 ∧ s1.channel 0 = .ret (s1, c1) ∧ (c1.write .epoch b!"x").2 = [(0, m1)] ∧
      ¬ ValidField 48 m1.appname ∧ m1.marshal = .ret (.ok b!"<0>1 1970-01-01T00:00:00Z - a b 1 - - x") ∧
      s0.subSyslog [] = .ret s2 ∧ s2.channel 0 = .ret (s2, c2) ∧ (c2.write .epoch b!"x").2 = [(0, m2)] ∧
      ¬ ValidField 48 m2.appname ∧ m2.marshal = .ret (.ok b!"<0>1 1970-01-01T00:00:00Z -  1 - - x") ∧
      s0.subSyslog (List.replicate 100 65) = .ret s3 ∧ ¬ ValidField 48 s3.appname := by
  refine ⟨_, _, _, _, _, _, _, _, rfl, rfl, rfl, rfl, ?_, ?_, rfl, rfl, rfl, ?_, ?_, rfl, ?_⟩ <;> decide +kernel

example : IsSanitised 48 b!"app" b!"app" ∧ ValidField 48 (appPath b!"app" [.channel 3, .sub b!"worker", .testMode]) :=
  ⟨validator_sanitised b!"app" 48, by decide +kernel⟩

/-! ## C33 -/

/-- C33: `Write` accepts everything: it returns the number of bytes given and no error. On `/dev/null` it sends
nothing; on a live channel it sends exactly one message, without structured data, whose text is the input without
its trailing white space. -/
theorem C33_write (c : Channel) (now : Time) (d : Bytes) :
    (c.write now d).1 = (d.length, none) ∧
    (c.isDevNull = true → (c.write now d).2 = []) ∧
    (c.isDevNull = false → ∃ out m, (c.write now d).2 = [(out, m)] ∧ IsTrimOf m.message d ∧ m.sd = []) := by
  cases c with
  | devNull => exact ⟨rfl, fun _ => rfl, fun h => by simp [Channel.isDevNull] at h⟩
  | msg a => exact ⟨rfl, fun h => by simp [Channel.isDevNull] at h, fun _ => ⟨_, _, rfl, trim_spec d, rfl⟩⟩
  | tru a => exact ⟨rfl, fun h => by simp [Channel.isDevNull] at h, fun _ => ⟨_, _, rfl, trim_spec d, rfl⟩⟩

/-- C33: `Log` sends the trimmed text with the structured data given, in order, on a live channel, and nothing on
`/dev/null`. -/
theorem C33_log (c : Channel) (now : Time) (d : Bytes) (sd : List SD) :
    (c.isDevNull = true → c.log now d sd = []) ∧
    (c.isDevNull = false → ∃ out m, c.log now d sd = [(out, m)] ∧ IsTrimOf m.message d ∧ m.sd = sd) := by
  have key : ∀ a : ChanAttr, IsTrimOf (if sd.length > 0 then (Channel.forge a now d).addSD sd else Channel.forge a now d).message d ∧
      (if sd.length > 0 then (Channel.forge a now d).addSD sd else Channel.forge a now d).sd = sd := by
    intro a
    cases sd with
    | nil => exact ⟨trim_spec d, rfl⟩
    | cons x r => exact ⟨trim_spec d, rfl⟩
  cases c with
  | devNull => exact ⟨fun _ => rfl, fun h => by simp [Channel.isDevNull] at h⟩
  | msg a => exact ⟨fun h => by simp [Channel.isDevNull] at h, fun _ => ⟨_, _, rfl, key a⟩⟩
  | tru a => exact ⟨fun h => by simp [Channel.isDevNull] at h, fun _ => ⟨_, _, rfl, key a⟩⟩

/-- C33: a line printed with `Logger(prefix)` is one message with the prefix and the line (and the location in
between on a debug channel), trimmed; nothing on `/dev/null`. -/
theorem C33_logger (c : Channel) (now : Time) (pre loc d : Bytes) :
    (c.isDevNull = true → c.loggerPrint now pre loc d = []) ∧
    (c.isDevNull = false → ∃ out m, c.loggerPrint now pre loc d = [(out, m)] ∧
      (IsTrimOf m.message (pre ++ d) ∨ (Priority.severity m.prio = (7 : Int) ∧ IsTrimOf m.message (pre ++ loc ++ d)))) := by
  have trimnl : ∀ b : Bytes, IsTrimOf (trimRightSpace (b ++ if d.getLast? = some LF then [] else [LF])) b := by
    intro b
    by_cases h : d.getLast? = some LF
    · rw [if_pos h, List.append_nil]; exact trim_spec b
    · rw [if_neg h]
      have := trim_append_space b (c := 10) (by decide)
      rw [show utf8 10 = [LF] from rfl] at this
      rw [this]; exact trim_spec b
  have key : ∀ a : ChanAttr, ∃ m, Channel.forge a now (pre ++ (if Priority.severity a.priority = (7 : Int) then loc else []) ++ d ++
      if d.getLast? = some LF then [] else [LF]) = m ∧
      (IsTrimOf m.message (pre ++ d) ∨ (Priority.severity m.prio = (7 : Int) ∧ IsTrimOf m.message (pre ++ loc ++ d))) := by
    intro a
    refine ⟨_, rfl, ?_⟩
    by_cases h : Priority.severity a.priority = (7 : Int)
    · right
      rw [if_pos h]
      exact ⟨h, trimnl _⟩
    · left
      rw [if_neg h, List.append_nil]
      exact trimnl _
  cases c with
  | devNull => exact ⟨fun _ => rfl, fun h => by simp [Channel.isDevNull] at h⟩
  | msg a =>
    obtain ⟨m, rfl, h⟩ := key a
    exact ⟨fun h => by simp [Channel.isDevNull] at h, fun _ => ⟨_, _, rfl, h⟩⟩
  | tru a =>
    obtain ⟨m, rfl, h⟩ := key a
    exact ⟨fun h => by simp [Channel.isDevNull] at h, fun _ => ⟨_, _, rfl, h⟩⟩

example : ((Channel.tru ⟨14, b!"h", b!"1", b!"app", b!"-", 0⟩).write .epoch b!"text\n").2.map (·.2.message) = [b!"text"] := by
  decide +kernel

end Syslog5424

/-! ## C57: concurrent calls of `Channel` -/
namespace Syslog5424
open Spec

/-- What `Channel(sev)` must return. -/
def rightChannel (p : Int) (out : Nat) (app host pid : Bytes) (i : Int) : Channel :=
  if i ≤ Priority.severity p then .tru ⟨Priority.facility p + i, host, pid, app, b!"-", out⟩ else .devNull

/-- Every entry of the table is the right channel or still `/dev/null`. -/
def TabSafe (p : Int) (out : Nat) (app : Bytes) (l : List Channel) : Prop :=
  l.length = 8 ∧ ∀ i : Nat, i < 8 → ∃ c, l[i]? = some c ∧
    (c = .devNull ∨ ((i : Int) ≤ Priority.severity p ∧ ∃ host pid, ValidField 255 host ∧ ValidField 128 pid ∧
      c = .tru ⟨Priority.facility p + i, host, pid, app, b!"-", out⟩))

def PCSafe (p : Int) (out : Nat) (app : Bytes) (sev : Int) (some? : Bool) : Syslog.PC → Prop
  | .test => True
  | .alloc => True
  | .loop _ => some? = true
  | .read => some? = true
  | .crash => False
  | .done c => c = .devNull ∨ (Priority.severity sev ≤ Priority.severity p ∧ ∃ host pid, ValidField 255 host ∧ ValidField 128 pid ∧
      c = .tru ⟨Priority.facility p + Priority.severity sev, host, pid, app, b!"-", out⟩)

theorem nulls_safe (p : Int) (out : Nat) (app : Bytes) : TabSafe p out app Syslog.nulls := by
  refine ⟨rfl, fun i hi => ⟨.devNull, ?_, Or.inl rfl⟩⟩
  show (List.replicate 8 Channel.devNull)[i]? = _
  rw [List.getElem?_replicate, if_pos hi]

theorem chanStep_safe {p : Int} {out : Nat} {app : Bytes} {s : Syslog} (h : SysInv p out app s) (sev : Int)
    (ch : Option (List Channel)) (pc : Syslog.PC) (hch : ∀ l, ch = some l → TabSafe p out app l)
    (hpc : PCSafe p out app sev ch.isSome pc) :
    (∀ l, (s.chanStep sev ch pc).1 = some l → TabSafe p out app l) ∧
    (ch.isSome = true → (s.chanStep sev ch pc).1.isSome = true) ∧
    PCSafe p out app sev (s.chanStep sev ch pc).1.isSome (s.chanStep sev ch pc).2 := by
  have hr := sev_range p
  have hfr := fac_range p
  have hs := sev_range sev
  cases pc with
  | test =>
    refine ⟨hch, id, ?_⟩
    cases ch with
    | none => simp [Syslog.chanStep, PCSafe]
    | some l => simp [Syslog.chanStep, PCSafe]
  | alloc =>
    refine ⟨?_, fun _ => rfl, rfl⟩
    intro l hl
    simp only [Syslog.chanStep, Option.some.injEq] at hl
    subst hl
    exact nulls_safe p out app
  | loop n =>
    cases ch with
    | none => simp [PCSafe] at hpc
    | some l =>
      obtain ⟨h1, h2⟩ := hch l rfl
      unfold Syslog.chanStep
      simp only
      by_cases hn : (n : Int) ≤ s.minSev
      · have hn' : (n : Int) ≤ Priority.severity p := by rw [← h.minSev]; exact hn
        rw [if_pos hn, if_pos (by omega)]
        refine ⟨?_, fun _ => rfl, rfl⟩
        intro l' hl'
        simp only [Option.some.injEq] at hl'
        subst hl'
        refine ⟨by simp [h1], fun i hi => ?_⟩
        rw [List.getElem?_set]
        by_cases he : n = i
        · subst he
          rw [if_pos rfl, if_pos (by omega)]
          refine ⟨_, rfl, Or.inr ⟨hn', s.hostname, s.pid, h.hostname, h.pid, ?_⟩⟩
          rw [h.facility, h.appname, h.output, or_eq_add hfr.1 hfr.2.1 (by omega) (by omega) (by omega)]
        · rw [if_neg he]
          exact h2 i hi
      · rw [if_neg hn]
        exact ⟨hch, id, rfl⟩
  | read =>
    cases ch with
    | none => simp [PCSafe] at hpc
    | some l =>
      obtain ⟨h1, h2⟩ := hch l rfl
      obtain ⟨c, e, hc⟩ := h2 (Priority.severity sev).toNat (by omega)
      unfold Syslog.chanStep
      simp only
      rw [if_pos hs.1, e]
      refine ⟨hch, id, ?_⟩
      have ee : (((Priority.severity sev).toNat : Nat) : Int) = Priority.severity sev := by omega
      rw [ee] at hc
      exact hc
  | done c => exact ⟨hch, id, hpc⟩
  | crash => exact absurd hpc id

/-- The invariant of every interleaving. -/
theorem conc_safe {p : Int} {out : Nat} {app : Bytes} {s : Syslog} (h : SysInv p out app s) (sev : Nat → Int) (sched : List Nat) :
    (∀ l, (s.concRun sev sched).1 = some l → TabSafe p out app l) ∧
    ∀ g, PCSafe p out app (sev g) (s.concRun sev sched).1.isSome ((s.concRun sev sched).2 g) := by
  unfold Syslog.concRun
  have base : (∀ l, s.channels = some l → TabSafe p out app l) ∧
      ∀ g, PCSafe p out app (sev g) s.channels.isSome ((fun _ => Syslog.PC.test) g) := by
    refine ⟨fun l hl => ?_, fun g => trivial⟩
    obtain ⟨h1, h2⟩ := h.channels l hl
    refine ⟨h1, fun i hi => ?_⟩
    obtain ⟨host, pid, v1, v2, e⟩ := h2 i hi
    refine ⟨_, e, ?_⟩
    by_cases hc : (i : Int) ≤ Priority.severity p
    · rw [if_pos hc]; exact Or.inr ⟨hc, host, pid, v1, v2, rfl⟩
    · rw [if_neg hc]; exact Or.inl rfl
  generalize hst : ((s.channels, fun _ => Syslog.PC.test) : Option (List Channel) × (Nat → Syslog.PC)) = st
  have base' : (∀ l, st.1 = some l → TabSafe p out app l) ∧ ∀ g, PCSafe p out app (sev g) st.1.isSome (st.2 g) := by
    rw [← hst]; exact base
  clear hst base
  induction sched generalizing st with
  | nil => exact base'
  | cons g r ih =>
    apply ih
    obtain ⟨b1, b2⟩ := base'
    obtain ⟨c1, c2, c3⟩ := chanStep_safe h (sev g) st.1 (st.2 g) b1 (b2 g)
    refine ⟨c1, fun i => ?_⟩
    unfold Syslog.concStep
    simp only
    by_cases hi : i = g
    · subst hi; rw [if_pos rfl]; exact c3
    · rw [if_neg hi]
      have := b2 i
      cases hpc : st.2 i with
      | test => trivial
      | alloc => trivial
      | loop n => rw [hpc] at this; exact c2 this
      | read => rw [hpc] at this; exact c2 this
      | done c => rw [hpc] at this; exact this
      | crash => rw [hpc] at this; exact this

/-- C57 (partial): whatever the interleaving of any number of goroutines calling `Channel`, none of them crashes,
and every channel returned is either `/dev/null` or the channel of the right facility and severity, never one less
severe than the threshold. Missing: that it is not `/dev/null` when it must be live, see `C57_race_violated`. -/
theorem C57_safe_partial (host : Option Bytes) (pid out : Nat) (p : Int) (app : Bytes) (hpid : pid < 2 ^ 63) (s0 s : Syslog)
    (h0 : Syslog.new host pid out p app = some s0) (history : List Syslog.Call) (hs : s0.calls history = .ret s)
    (sev : Nat → Int) (sched : List Nat) (g : Nat) :
    (s.concRun sev sched).2 g ≠ .crash ∧
    ∀ c, (s.concRun sev sched).2 g = .done c → c = .devNull ∨ (sev g % 8 ≤ p % 8 ∧ ∃ a, c = .tru a ∧
      a.priority = (p % 256 / 8 * 8 + sev g % 8 : Int) ∧ a.output = out ∧
      ∃ name, IsSanitised 48 app name ∧ a.appname = appPath name history) := by
  obtain ⟨s1, h1, h2⟩ := calls_inv (new_inv hpid h0) history
  rw [hs] at h1
  simp only [Out.ret.injEq] at h1
  subst h1
  have key := (conc_safe h2 sev sched).2 g
  refine ⟨fun hc => by rw [hc] at key; exact key, fun c hc => ?_⟩
  rw [hc] at key
  rcases key with h | ⟨hle, ho, pi, _, _, rfl⟩
  · exact Or.inl h
  · rw [severity_eq, severity_eq] at hle
    refine Or.inr ⟨hle, _, rfl, ?_, rfl, _, validator_sanitised app 48, rfl⟩
    show (Priority.facility p + Priority.severity (sev g) : Int) = _
    rw [facility_eq, severity_eq]

/-- Where a goroutine can be when the table was there from the start. -/
def PCReady (l : List Channel) (sev : Int) : Syslog.PC → Prop
  | .test => True
  | .read => True
  | .done c => l[(Priority.severity sev).toNat]? = some c
  | _ => False

theorem conc_ready {s : Syslog} {l : List Channel} (hl : s.channels = some l) (hlen : l.length = 8) (sev : Nat → Int)
    (sched : List Nat) :
    (s.concRun sev sched).1 = some l ∧ ∀ g, PCReady l (sev g) ((s.concRun sev sched).2 g) := by
  unfold Syslog.concRun
  rw [hl]
  have base : ((some l, fun _ => Syslog.PC.test) : Option (List Channel) × (Nat → Syslog.PC)).1 = some l ∧
      ∀ g, PCReady l (sev g) (((some l, fun _ => Syslog.PC.test) : Option (List Channel) × (Nat → Syslog.PC)).2 g) :=
    ⟨rfl, fun _ => trivial⟩
  generalize ((some l, fun _ => Syslog.PC.test) : Option (List Channel) × (Nat → Syslog.PC)) = st at base
  induction sched generalizing st with
  | nil => exact base
  | cons g r ih =>
    apply ih
    obtain ⟨b1, b2⟩ := base
    have hs := sev_range (sev g)
    have key : (s.chanStep (sev g) st.1 (st.2 g)).1 = some l ∧ PCReady l (sev g) (s.chanStep (sev g) st.1 (st.2 g)).2 := by
      have hg := b2 g
      rw [b1]
      cases hpc : st.2 g with
      | test => exact ⟨rfl, by simp [Syslog.chanStep, PCReady]⟩
      | alloc => rw [hpc] at hg; exact absurd hg id
      | loop n => rw [hpc] at hg; exact absurd hg id
      | crash => rw [hpc] at hg; exact absurd hg id
      | done c => rw [hpc] at hg; exact ⟨rfl, hg⟩
      | read =>
        unfold Syslog.chanStep
        simp only
        rw [if_pos hs.1]
        have hlt : (Priority.severity (sev g)).toNat < l.length := by omega
        rw [List.getElem?_eq_getElem hlt]
        exact ⟨rfl, List.getElem?_eq_getElem hlt⟩
    refine ⟨key.1, fun i => ?_⟩
    unfold Syslog.concStep
    simp only
    by_cases hi : i = g
    · subst hi; rw [if_pos rfl]; exact key.2
    · rw [if_neg hi]; exact b2 i

/-- C57: once one call of `Channel` has returned before the concurrent ones start, all of them return the right
channel (the one a sequential call returns, see `C29_filter`), whatever the interleaving. -/
theorem C57_after_first_partial (host : Option Bytes) (pid out : Nat) (p : Int) (app : Bytes) (hpid : pid < 2 ^ 63)
    (s0 s s' : Syslog) (h0 : Syslog.new host pid out p app = some s0) (history : List Syslog.Call) (hs : s0.calls history = .ret s)
    (x : Int) (c0 : Channel) (hfirst : s.channel x = .ret (s', c0)) (sev : Nat → Int) (sched : List Nat) (g : Nat) (c : Channel)
    (hc : (s'.concRun sev sched).2 g = .done c) :
    s'.channel (sev g) = .ret (s', c) := by
  obtain ⟨s1, h1, h2⟩ := calls_inv (new_inv hpid h0) history
  rw [hs] at h1
  simp only [Out.ret.injEq] at h1
  subst h1
  obtain ⟨s2, c2, h3, h4, _⟩ := channel_inv h2 x
  rw [hfirst] at h3
  simp only [Out.ret.injEq, Prod.mk.injEq] at h3
  obtain ⟨rfl, rfl⟩ := h3
  have hsome : ∃ l, s'.channels = some l := by
    unfold Syslog.channel at hfirst
    cases ht : s.table with
    | none => rw [ht] at hfirst; simp at hfirst
    | some l =>
      rw [ht] at hfirst
      simp only at hfirst
      split at hfirst
      · split at hfirst
        · simp only [Out.ret.injEq, Prod.mk.injEq] at hfirst
          exact ⟨l, by rw [← hfirst.1]⟩
        · simp at hfirst
      · simp at hfirst
  obtain ⟨l, hl⟩ := hsome
  have key := (conc_ready hl (h4.channels l hl).1 sev sched).2 g
  rw [hc] at key
  simp only [PCReady] at key
  unfold Syslog.channel Syslog.table
  rw [hl]
  simp only
  rw [if_pos (sev_range (sev g)).1, key, ← hl]

/-- C57 is violated: two goroutines make the first two calls of `Channel` on a `Syslog` with threshold debug; the
second one runs between the allocation of the table and the loop that fills it, and gets `/dev/null` for the most
severe level. The same two calls one after the other give a live channel. -/
theorem C57_race_violated : ∃ s0 s1 a, Syslog.new (some b!"h") 1 0 7 b!"app" = some s0 ∧
    (s0.concRun (fun _ => 0) [0, 0, 1, 1]).2 1 = .done .devNull ∧
    s0.channel 0 = .ret (s1, .tru a) ∧
    (s0.concRun (fun _ => 0) (List.replicate 13 0 ++ [1, 1])).2 1 = .done (.tru a) := by
  refine ⟨⟨0, b!"h", b!"1", b!"app", none, 0, 7⟩,
    ⟨0, b!"h", b!"1", b!"app", some ((List.range 8).map fun (i : Nat) => Channel.tru ⟨(i : Int), b!"h", b!"1", b!"app", b!"-", 0⟩), 0, 7⟩,
    ⟨0, b!"h", b!"1", b!"app", b!"-", 0⟩, ?_, ?_, ?_, ?_⟩ <;> decide +kernel

end Syslog5424
