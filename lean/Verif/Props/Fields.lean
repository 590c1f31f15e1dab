import Verif.Model.Message
import Verif.Lemmas.Text
/-! # Properties C05 to C07: sanitising and trimming -/
namespace Syslog5424
open Spec

/-! ## C05 -/

/-- C05: whatever is given to `CreateWholeMessage`, the four fields are valid. -/
theorem C05_create_valid (prio : Int) (ts : Time) (host app pid msgid text : Bytes) :
    let m := Message.createWhole prio ts host app pid msgid text
    ValidField 255 m.hostname ∧ ValidField 48 m.appname ∧ ValidField 128 m.procid ∧
      ValidField 32 m.msgid :=
  ⟨validator_valid _ (by omega), validator_valid _ (by omega), validator_valid _ (by omega),
    validator_valid _ (by omega)⟩

/-- C05: whatever is given to a setter, the field is valid and nothing else changes. -/
theorem C05_setter_valid (m : Message) (x : Bytes) :
    (ValidField 255 (m.setHost x).hostname ∧ m.setHost x = { m with hostname := (m.setHost x).hostname }) ∧
    (ValidField 48 (m.setAppName x).appname ∧ m.setAppName x = { m with appname := (m.setAppName x).appname }) ∧
    (ValidField 128 (m.setProcID x).procid ∧ m.setProcID x = { m with procid := (m.setProcID x).procid }) ∧
    (ValidField 32 (m.setMsgID x).msgid ∧ m.setMsgID x = { m with msgid := (m.setMsgID x).msgid }) :=
  ⟨⟨validator_valid _ (by omega), rfl⟩, ⟨validator_valid _ (by omega), rfl⟩,
   ⟨validator_valid _ (by omega), rfl⟩, ⟨validator_valid _ (by omega), rfl⟩⟩

/-- C05: valid values are kept unchanged. -/
theorem C05_valid_kept (m : Message) (x : Bytes) :
    (ValidField 255 x → (m.setHost x).hostname = x) ∧ (ValidField 48 x → (m.setAppName x).appname = x) ∧
    (ValidField 128 x → (m.setProcID x).procid = x) ∧ (ValidField 32 x → (m.setMsgID x).msgid = x) :=
  ⟨validator_id, validator_id, validator_id, validator_id⟩

/-- C05: the same for `CreateWholeMessage`. -/
theorem C05_create_kept (prio : Int) (ts : Time) (host app pid msgid text : Bytes)
    (h1 : ValidField 255 host) (h2 : ValidField 48 app) (h3 : ValidField 128 pid) (h4 : ValidField 32 msgid) :
    let m := Message.createWhole prio ts host app pid msgid text
    m.hostname = host ∧ m.appname = app ∧ m.procid = pid ∧ m.msgid = msgid ∧ m.prio = prio ∧
      m.timestamp = ts ∧ m.sd = [] :=
  ⟨validator_id h1, validator_id h2, validator_id h3, validator_id h4, rfl, rfl, rfl⟩

/-- C05: sanitising a sanitised value changes nothing. -/
theorem C05_idempotent (m m' : Message) (x : Bytes) :
    (m'.setHost (m.setHost x).hostname).hostname = (m.setHost x).hostname ∧
    (m'.setAppName (m.setAppName x).appname).appname = (m.setAppName x).appname ∧
    (m'.setProcID (m.setProcID x).procid).procid = (m.setProcID x).procid ∧
    (m'.setMsgID (m.setMsgID x).msgid).msgid = (m.setMsgID x).msgid :=
  ⟨validator_id (validator_valid _ (by omega)), validator_id (validator_valid _ (by omega)),
   validator_id (validator_valid _ (by omega)), validator_id (validator_valid _ (by omega))⟩

theorem sanitised_unique {n : Nat} {x y z : Bytes} (hy : IsSanitised n x y) (hz : IsSanitised n x z) : y = z := by
  by_cases h : x = []
  · rw [hy.1 h, hz.1 h]
  · obtain ⟨ly, ey⟩ := hy.2 h
    obtain ⟨lz, ez⟩ := hz.2 h
    refine List.ext_getElem (by rw [ly, lz]) fun i h1 h2 => ?_
    have hx : i < x.length := by omega
    by_cases hp : IsPrintUsAscii x[i]
    · rw [(ey i hx h1).1 hp, (ez i hx h2).1 hp]
    · rw [(ey i hx h1).2 hp, (ez i hx h2).2 hp]


theorem validator_sanitised (x : Bytes) (n : Nat) : IsSanitised n x (validatorGeneric x n) := by
  constructor
  · rintro rfl; rfl
  · intro h
    refine ⟨by simp [validator_eq h], ?_⟩
    intro i hx hy
    simp only [validator_eq h, List.getElem_map, List.getElem_take]
    refine ⟨cleanByte_id, ?_⟩
    intro hn
    unfold cleanByte
    rw [if_pos]
    simp only [IsPrintUsAscii] at hn
    by_cases h33 : 33 ≤ x[i].toNat
    · right
      apply UInt8.lt_iff_toNat_lt.mpr
      show 126 < _; omega
    · left
      apply UInt8.lt_iff_toNat_lt.mpr
      show _ < 33; omega

/-- C05: byte by byte description of the stored field. -/
theorem C05_pointwise (m : Message) (x : Bytes) :
    IsSanitised 255 x (m.setHost x).hostname ∧ IsSanitised 48 x (m.setAppName x).appname ∧
    IsSanitised 128 x (m.setProcID x).procid ∧ IsSanitised 32 x (m.setMsgID x).msgid :=
  ⟨validator_sanitised _ _, validator_sanitised _ _, validator_sanitised _ _, validator_sanitised _ _⟩

/-- C05: the same for `CreateWholeMessage`. -/
theorem C05_create_pointwise (prio : Int) (ts : Time) (host app pid msgid text : Bytes) :
    let m := Message.createWhole prio ts host app pid msgid text
    IsSanitised 255 host m.hostname ∧ IsSanitised 48 app m.appname ∧
    IsSanitised 128 pid m.procid ∧ IsSanitised 32 msgid m.msgid :=
  ⟨validator_sanitised _ _, validator_sanitised _ _, validator_sanitised _ _, validator_sanitised _ _⟩

example : (Message.empty.setHost b!"a b\né").hostname = b!"a%b%%%" ∧
    (Message.empty.setMsgID []).msgid = b!"-" ∧
    (Message.empty.setMsgID (List.replicate 40 65)).msgid = List.replicate 32 65 := by decide +kernel

/-! ## C06 -/

/-- The calls that derive a message from another one. -/
inductive Setter where
  | host (x : Bytes)
  /-- `Time`, `Now`, `Timestamp`, `Delta`, `Epoch`: any time -/
  | time (t : Time)
  | appName (x : Bytes)
  | procID (x : Bytes)
  | msgID (x : Bytes)
  | priority (p : Int)
  | msg (x : Bytes)
  | structuredData (l : List SD)
  | localHost

/-- The effect of a call; `osHost` is the name given by `os.Hostname`. -/
def Setter.apply (osHost : Bytes) (m : Message) : Setter → Message
  | host x => m.setHost x
  | time t => m.setTime t
  | appName x => m.setAppName x
  | procID x => m.setProcID x
  | msgID x => m.setMsgID x
  | priority p => m.setPriority p
  | msg x => m.setMsg x
  | structuredData l => m.addSD l
  | localHost => m.setLocalHost osHost

/-- The header of a message is valid and its text has no trailing white space. -/
def Spec.GoodHeader (m : Message) : Prop :=
  ValidField 255 m.hostname ∧ ValidField 48 m.appname ∧ ValidField 128 m.procid ∧
    ValidField 32 m.msgid ∧ ¬ EndsWithSpace m.message

theorem setter_good {osHost : Bytes} {m : Message} (h : GoodHeader m) (s : Setter)
    (hl : s = .localHost → ValidField 255 osHost) : GoodHeader (s.apply osHost m) := by
  obtain ⟨h1, h2, h3, h4, h5⟩ := h
  cases s with
  | host x => exact ⟨validator_valid _ (by omega), h2, h3, h4, h5⟩
  | time t => exact ⟨h1, h2, h3, h4, h5⟩
  | appName x => exact ⟨h1, validator_valid _ (by omega), h3, h4, h5⟩
  | procID x => exact ⟨h1, h2, validator_valid _ (by omega), h4, h5⟩
  | msgID x => exact ⟨h1, h2, h3, validator_valid _ (by omega), h5⟩
  | priority p => exact ⟨h1, h2, h3, h4, h5⟩
  | msg x => exact ⟨h1, h2, h3, h4, (trim_spec x).2⟩
  | structuredData l => exact ⟨h1, h2, h3, h4, h5⟩
  | localHost => exact ⟨hl rfl, h2, h3, h4, h5⟩

theorem setters_good {osHost : Bytes} {m : Message} (h : GoodHeader m) (l : List Setter)
    (hl : .localHost ∈ l → ValidField 255 osHost) : GoodHeader (l.foldl (Setter.apply osHost) m) := by
  induction l generalizing m with
  | nil => exact h
  | cons s r ih =>
    refine ih (setter_good h s ?_) ?_
    · rintro rfl; exact hl (by simp)
    · intro hm; exact hl (by simp [hm])

theorem empty_good : GoodHeader Message.empty := by
  have hp : ∀ n, 0 < n → ValidField n b!"-" := fun n hn =>
    ⟨by decide, by simp; omega, by simp [IsPrintUsAscii]⟩
  refine ⟨hp _ (by omega), hp _ (by omega), hp _ (by omega), hp _ (by omega), ?_⟩
  rintro ⟨p, c, hc, e⟩
  have : ∀ c ∈ whiteSpace, 0 < (utf8 c).length := by decide +kernel
  have := this c hc
  have e := congrArg List.length e
  simp [Message.empty] at e
  grind

/-- C06: every message obtained from `EmptyMessage` or `CreateWholeMessage` by any sequence of calls
(without `LocalHost`) has valid header fields and a trimmed text. -/
theorem C06_setter_sequences (osHost : Bytes) (l : List Setter) (hl : Setter.localHost ∉ l) :
    GoodHeader (l.foldl (Setter.apply osHost) Message.empty) ∧
    ∀ prio ts host app pid msgid text,
      GoodHeader (l.foldl (Setter.apply osHost) (Message.createWhole prio ts host app pid msgid text)) := by
  refine ⟨setters_good empty_good l (fun h => absurd h hl), ?_⟩
  intro prio ts host app pid msgid text
  exact setters_good ⟨validator_valid _ (by omega), validator_valid _ (by omega),
    validator_valid _ (by omega), validator_valid _ (by omega), (trim_spec text).2⟩ l
    (fun h => absurd h hl)

/-- C06 (partial): with `LocalHost`, or starting from `CreateMessage`, it holds if the operating
system's host name is itself valid. Missing: nothing checks that name, see `C06_localhost_violated`. -/
theorem C06_with_localhost_partial (osHost : Bytes) (hos : ValidField 255 osHost) (l : List Setter) :
    GoodHeader (l.foldl (Setter.apply osHost) Message.empty) ∧
    ∀ now app prio text,
      GoodHeader (l.foldl (Setter.apply osHost) (Message.create osHost now app prio text)) := by
  refine ⟨setters_good empty_good l (fun _ => hos), ?_⟩
  intro now app prio text
  have hp : ∀ n, 0 < n → ValidField n b!"-" := fun n hn =>
    ⟨by decide, by simp; omega, by simp [IsPrintUsAscii]⟩
  exact setters_good ⟨hos, validator_valid _ (by omega), hp _ (by omega), hp _ (by omega),
    (trim_spec text).2⟩ l (fun _ => hos)

/-- C06 is violated with `LocalHost`: if `os.Hostname` fails, the host name is the empty string and it
is stored as it is. -/
theorem C06_localhost_violated :
    ¬ GoodHeader ([Setter.localHost].foldl (Setter.apply []) Message.empty) := by
  rintro ⟨⟨h, _⟩, _⟩
  exact absurd h (by decide)

example : ([Setter.host b!"h x", .msg b!"hello \n", .localHost, .appName []].foldl
    (Setter.apply b!"box") Message.empty).message = b!"hello" := by decide +kernel
example : ValidField 255 b!"box" := by decide +kernel

/-! ### The last call wins -/

/-- `v` is what the last call of `l` that concerns `f` gives it. -/
def Spec.LastGiven {α : Type} (f : Setter → Option α) (l : List Setter) (v : α) : Prop :=
  ∃ before s after, l = before ++ s :: after ∧ f s = some v ∧ ∀ t ∈ after, f t = none

/-- The priority a call gives. -/
def Spec.givesPriority : Setter → Option Int | .priority p => some p | _ => none
/-- The time a call gives. -/
def Spec.givesTime : Setter → Option Time | .time t => some t | _ => none
/-- The host name a call gives: its argument, or the name of the operating system. -/
def Spec.givesHost (osHost : Bytes) : Setter → Option (Bool × Bytes)
  | .host x => some (true, x) | .localHost => some (false, osHost) | _ => none
/-- The application name a call gives. -/
def Spec.givesAppName : Setter → Option Bytes | .appName x => some x | _ => none
/-- The process identifier a call gives. -/
def Spec.givesProcID : Setter → Option Bytes | .procID x => some x | _ => none
/-- The message identifier a call gives. -/
def Spec.givesMsgID : Setter → Option Bytes | .msgID x => some x | _ => none
/-- The text a call gives. -/
def Spec.givesMsg : Setter → Option Bytes | .msg x => some x | _ => none
/-- The structured data a call adds. -/
def Spec.addsSD : Setter → List SD | .structuredData l => l | _ => []

theorem last_wins {α β : Type} (osHost : Bytes) (f : Setter → Option α) (g : Message → β) (R : α → β → Prop)
    (hset : ∀ m s v, f s = some v → R v (g (s.apply osHost m)))
    (hkeep : ∀ m s, f s = none → g (s.apply osHost m) = g m) (m : Message) (l : List Setter) :
    (∀ v, LastGiven f l v → R v (g (l.foldl (Setter.apply osHost) m))) ∧
    ((∀ s ∈ l, f s = none) → g (l.foldl (Setter.apply osHost) m) = g m) := by
  have keep : ∀ (l : List Setter) (m : Message), (∀ s ∈ l, f s = none) →
      g (l.foldl (Setter.apply osHost) m) = g m := by
    intro l
    induction l with
    | nil => intro m _; rfl
    | cons s r ih =>
      intro m h
      rw [List.foldl_cons, ih _ (fun t ht => h t (by simp [ht])), hkeep m s (h s (by simp))]
  refine ⟨?_, keep l m⟩
  rintro v ⟨b, s, a, rfl, hs, ha⟩
  rw [List.foldl_append, List.foldl_cons, keep a _ ha]
  exact hset _ s v hs

/-- C06: after any sequence of calls, every field of the message is what the last call that concerns
this field gave it: the priority and the time as given, the names sanitised (the host name of the
operating system as it is), the text trimmed. A field no call concerns keeps its value. -/
theorem C06_last_wins (osHost : Bytes) (m : Message) (l : List Setter) :
    let r := l.foldl (Setter.apply osHost) m
    ((∀ p, LastGiven givesPriority l p → r.prio = p) ∧
      ((∀ s ∈ l, givesPriority s = none) → r.prio = m.prio)) ∧
    ((∀ t, LastGiven givesTime l t → r.timestamp = t) ∧
      ((∀ s ∈ l, givesTime s = none) → r.timestamp = m.timestamp)) ∧
    ((∀ v, LastGiven (givesHost osHost) l v →
        if v.1 then IsSanitised 255 v.2 r.hostname else r.hostname = v.2) ∧
      ((∀ s ∈ l, givesHost osHost s = none) → r.hostname = m.hostname)) ∧
    ((∀ x, LastGiven givesAppName l x → IsSanitised 48 x r.appname) ∧
      ((∀ s ∈ l, givesAppName s = none) → r.appname = m.appname)) ∧
    ((∀ x, LastGiven givesProcID l x → IsSanitised 128 x r.procid) ∧
      ((∀ s ∈ l, givesProcID s = none) → r.procid = m.procid)) ∧
    ((∀ x, LastGiven givesMsgID l x → IsSanitised 32 x r.msgid) ∧
      ((∀ s ∈ l, givesMsgID s = none) → r.msgid = m.msgid)) ∧
    ((∀ x, LastGiven givesMsg l x → IsTrimOf r.message x) ∧
      ((∀ s ∈ l, givesMsg s = none) → r.message = m.message)) := by
  refine ⟨?_, ?_, ?_, ?_, ?_, ?_, ?_⟩
  · refine last_wins osHost givesPriority (·.prio) (fun p q => q = p) ?_ ?_ m l <;>
      intro m s <;> cases s <;> simp [givesPriority, Setter.apply, Message.setPriority, Message.setHost,
        Message.setTime, Message.setAppName, Message.setProcID, Message.setMsgID, Message.setMsg,
        Message.addSD, Message.setLocalHost]
  · refine last_wins osHost givesTime (·.timestamp) (fun p q => q = p) ?_ ?_ m l <;>
      intro m s <;> cases s <;> simp [givesTime, Setter.apply, Message.setPriority, Message.setHost,
        Message.setTime, Message.setAppName, Message.setProcID, Message.setMsgID, Message.setMsg,
        Message.addSD, Message.setLocalHost]
  · refine last_wins osHost (givesHost osHost) (·.hostname)
      (fun v q => if v.1 then IsSanitised 255 v.2 q else q = v.2) ?_ ?_ m l
    · rintro m s v h
      cases s <;> simp only [givesHost, Option.some.injEq, reduceCtorEq] at h <;> subst h
      · exact validator_sanitised _ _
      · rfl
    · intro m s h
      cases s <;> first | rfl | (simp [givesHost] at h)
  · refine last_wins osHost givesAppName (·.appname) (fun x q => IsSanitised 48 x q) ?_ ?_ m l
    · rintro m s v h
      cases s <;> simp only [givesAppName, Option.some.injEq, reduceCtorEq] at h
      subst h; exact validator_sanitised _ _
    · intro m s h
      cases s <;> first | rfl | (simp [givesAppName] at h)
  · refine last_wins osHost givesProcID (·.procid) (fun x q => IsSanitised 128 x q) ?_ ?_ m l
    · rintro m s v h
      cases s <;> simp only [givesProcID, Option.some.injEq, reduceCtorEq] at h
      subst h; exact validator_sanitised _ _
    · intro m s h
      cases s <;> first | rfl | (simp [givesProcID] at h)
  · refine last_wins osHost givesMsgID (·.msgid) (fun x q => IsSanitised 32 x q) ?_ ?_ m l
    · rintro m s v h
      cases s <;> simp only [givesMsgID, Option.some.injEq, reduceCtorEq] at h
      subst h; exact validator_sanitised _ _
    · intro m s h
      cases s <;> first | rfl | (simp [givesMsgID] at h)
  · refine last_wins osHost givesMsg (·.message) (fun x q => IsTrimOf q x) ?_ ?_ m l
    · rintro m s v h
      cases s <;> simp only [givesMsg, Option.some.injEq, reduceCtorEq] at h
      subst h; exact trim_spec _
    · intro m s h
      cases s <;> first | rfl | (simp [givesMsg] at h)

/-- C06: the structured data is the data of the first message followed by all the data added, in the
order of the calls. -/
theorem C06_sd_added (osHost : Bytes) (m : Message) (l : List Setter) :
    (l.foldl (Setter.apply osHost) m).sd = m.sd ++ (l.map addsSD).flatten := by
  induction l generalizing m with
  | nil => simp
  | cons s r ih =>
    rw [List.foldl_cons, ih]
    cases s <;> simp [Setter.apply, addsSD, Message.setPriority, Message.setHost,
        Message.setTime, Message.setAppName, Message.setProcID, Message.setMsgID, Message.setMsg,
        Message.addSD, Message.setLocalHost]

example : LastGiven givesPriority [.priority 3, .host b!"a", .priority 9, .msg b!"x"] 9 :=
  ⟨[.priority 3, .host b!"a"], .priority 9, [.msg b!"x"], rfl, rfl, by simp [givesPriority]⟩
example : LastGiven (givesHost b!"box") [.host b!"a", .localHost, .msg b!"x"] (false, b!"box") :=
  ⟨[.host b!"a"], .localHost, [.msg b!"x"], rfl, rfl, by simp [givesHost]⟩

/-! ## C07 -/

/-- C07: the stored text is the given text without its trailing white space, and this text is
unique, for every way to give a text to a message. -/
theorem C07_text_trimmed (text : Bytes) :
    ∀ t, (t = (Message.empty.setMsg text).message ↔ IsTrimOf t text) := by
  intro t
  constructor
  · rintro rfl; exact trim_spec text
  · exact trim_unique

/-- C07: all the constructors and `Msg` store the same text. -/
theorem C07_same_text (m : Message) (osHost : Bytes) (ts : Time) (prio : Int)
    (host app pid msgid text : Bytes) :
    (m.setMsg text).message = (Message.empty.setMsg text).message ∧
    (Message.create osHost ts app prio text).message = (Message.empty.setMsg text).message ∧
    (Message.createWhole prio ts host app pid msgid text).message = (Message.empty.setMsg text).message ∧
    (Message.forge prio ts host app pid msgid text).message = (Message.empty.setMsg text).message :=
  ⟨rfl, rfl, rfl, rfl⟩

/-- C07: trimming again changes nothing, and a text without trailing white space is kept. -/
theorem C07_idempotent (m m' : Message) (text : Bytes) :
    (m'.setMsg (m.setMsg text).message).message = (m.setMsg text).message ∧
    (¬ EndsWithSpace text → (m.setMsg text).message = text) :=
  ⟨trim_id (trim_spec text).2, trim_id⟩

/-- C07: what is kept is a prefix of the text: nothing is changed on the left. -/
theorem C07_prefix (m : Message) (text : Bytes) : (m.setMsg text).message <+: text := by
  obtain ⟨⟨ws, _, e⟩, _⟩ := trim_spec text
  exact ⟨_, e.symm⟩

example : (Message.empty.setMsg b!"  a b\u00a0\u2003 \r\n").message = b!"  a b" ∧
    IsTrimOf b!"  a b" b!"  a b\n" := by
  refine ⟨by decide +kernel, ?_⟩
  have : b!"  a b" = trimRightSpace b!"  a b\n" := by decide +kernel
  rw [this]; exact trim_spec _

end Syslog5424
