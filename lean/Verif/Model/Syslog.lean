import Verif.Model.Message
/-!
# Model of `syslog.go` and `channel.go`

A `*Sender` is represented by a number (which sender it is); what is given to `Send` is the result of
the operation. `Syslog` objects are mutable in Go (`Channel` fills the field `channels` on the first
call, `TestMode` overwrites two fields); here an operation returns the new state of the object.
-/
namespace Syslog5424

/-- The fields of `msgChannel` (channel.go:34-42), embedded in `trueChannel` (channel.go:45-47). -/
structure ChanAttr where
  priority : Priority
  hostname : Bytes
  pid : Bytes
  appname : Bytes
  msgid : Bytes
  output : Nat
deriving Repr, DecidableEq

/-- The three implementations of `Channel` (channel.go:30-47). -/
inductive Channel where
  | devNull
  | msg (c : ChanAttr)
  | tru (c : ChanAttr)
deriving Repr, DecidableEq

/-- What was given to `Sender.Send`: the sender and the message. -/
abbrev Sent := List (Nat × Message)

namespace Channel

/-- `IsDevNull` (channel.go:90-92,115-117). -/
def isDevNull : Channel → Bool
  | .devNull => true
  | _ => false

/-- `AppName` (channel.go:50-68 for `trueChannel`, channel.go:119-121 for `devnull`). `msgChannel` has no method of
its own: the method of the embedded `devnull` is promoted, so the result is a `devnull`. -/
def appName : Channel → Bytes → Channel
  | .devNull, _ => .devNull
  | .msg _, _ => .devNull
  | .tru d, sup =>
    let appname := if d.appname = b!"-" then sup else d.appname ++ b!"/" ++ sup
    .tru ⟨d.priority, d.hostname, d.pid, validApp appname, d.msgid, d.output⟩

/-- `Msgid` (channel.go:70-79 for `trueChannel`, channel.go:123-125 for `devnull`); as above, `msgChannel` inherits
the method of `devnull`. -/
def msgid : Channel → Bytes → Channel
  | .devNull, _ => .devNull
  | .msg _, _ => .devNull
  | .tru d, id => .msg ⟨d.priority, d.hostname, d.pid, d.appname, validMsgid id, d.output⟩

/-- `forgeMessage` with the attributes of the channel (channel.go:95,100). -/
def forge (c : ChanAttr) (now : Time) (d : Bytes) : Message :=
  Message.forge c.priority now c.hostname c.appname c.pid c.msgid d

/-- `Write` (channel.go:94-97,127-129): the two results and what is sent. The error of `Send` is
dropped by the code. -/
def write (now : Time) (d : Bytes) : Channel → (Nat × Option Err) × Sent
  | .devNull => ((d.length, none), [])
  | .msg c => ((d.length, none), [(c.output, forge c now d)])
  | .tru c => ((d.length, none), [(c.output, forge c now d)])

/-- `Log` (channel.go:99-107,131-132) with `Message.StructuredData` (message.go:138-140). -/
def log (now : Time) (d : Bytes) (sd : List SD) : Channel → Sent
  | .devNull => []
  | .msg c => [(c.output, if sd.length > 0 then (forge c now d).addSD sd else forge c now d)]
  | .tru c => [(c.output, if sd.length > 0 then (forge c now d).addSD sd else forge c now d)]

/-- `Logger(prefix)` (channel.go:81-88, 111-113) followed by `Print(s)`: the standard logger calls `Write`
once with the prefix, the location (only with the flag `Lshortfile`, that is for debug channels; `loc` is
`file.go:line: `), the text, and a newline if the text does not end with one. -/
def loggerPrint (now : Time) (pre loc s : Bytes) (c : Channel) : Sent :=
  let nl := if s.getLast? = some LF then [] else [LF]
  match c with
  | .devNull => (write now (pre ++ s ++ nl) .devNull).2
  | .msg a => (write now (pre ++ (if Priority.severity a.priority = (7 : Int) then loc else []) ++ s ++ nl) (.msg a)).2
  | .tru a => (write now (pre ++ (if Priority.severity a.priority = (7 : Int) then loc else []) ++ s ++ nl) (.tru a)).2

end Channel

/-- `Syslog` (syslog.go:14-22). -/
structure Syslog where
  facility : Priority
  hostname : Bytes
  pid : Bytes
  appname : Bytes
  channels : Option (List Channel)
  output : Nat
  minSev : Int
deriving Repr, DecidableEq

namespace Syslog

/-- `New` (syslog.go:25-52); `osHostname` is the result of `os.Hostname` (`none` is an error) and
`getpid` the process identifier. The error is the one of an empty application name. -/
def new (osHostname : Option Bytes) (getpid : Nat) (output : Nat) (minPriority : Int) (appname : Bytes) :
    Option Syslog :=
  let hostname := match osHostname with
    | some h => h
    | none => b!"-"
  let hostname := validHost hostname
  if appname = [] then none
  else
    let pid := natDec getpid
    some {
      facility := Priority.facility minPriority
      hostname := hostname
      pid := if pid = [] then b!"-" else pid
      appname := validApp appname
      channels := none
      output := output
      minSev := Priority.severity minPriority }

/-- `TestMode` (syslog.go:56-59). -/
def testMode (s : Syslog) : Syslog := { s with hostname := b!"localhost", pid := b!"1234" }

/-- The loop that fills the table of channels (syslog.go:69-78, 109-118): entry `sev` for every
`0 ≤ sev ≤ minSev`. `none` is an index out of range. -/
def fill (s : Syslog) (appname : Bytes) : Nat → List Channel → Option (List Channel)
  | 0, l => some l
  | n + 1, l => do
    let l ← fill s appname n l
    if n < l.length then
      some (l.set n (.tru ⟨Priority.or s.facility n, s.hostname, s.pid, appname, b!"-", s.output⟩))
    else none

/-- The eight `devNull` entries (syslog.go:64-67, 102-105). -/
def nulls : List Channel := List.replicate 8 .devNull

/-- The table used by `Channel`: built on the first call only (syslog.go:63-79). -/
def table (s : Syslog) : Option (List Channel) :=
  match s.channels with
  | some l => some l
  | none => fill s s.appname (s.minSev + 1).toNat nulls

/-- `Channel` (syslog.go:62-82). -/
def channel (s : Syslog) (sev : Int) : Out (Syslog × Channel) :=
  match s.table with
  | none => .panic
  | some l =>
    if 0 ≤ Priority.severity sev then
      match l[(Priority.severity sev).toNat]? with
      | some c => .ret ({ s with channels := some l }, c)
      | none => .panic
    else .panic

/-- `SubSyslog` (syslog.go:86-121). The application name is not sanitised. -/
def subSyslog (s : Syslog) (subAppName : Bytes) : Out Syslog :=
  let appname := if s.appname = b!"-" then subAppName else s.appname ++ b!"/" ++ subAppName
  match fill s appname (s.minSev + 1).toNat nulls with
  | none => .panic
  | some l => .ret ⟨s.facility, s.hostname, s.pid, appname, some l, s.output, s.minSev⟩

/-- The calls a program makes on a `Syslog` between its creation and the use of a channel. -/
inductive Call where
  | channel (sev : Int)
  | testMode
  | sub (name : Bytes)

/-- Running one call: the object the program continues with (the sub-syslog for `SubSyslog`). -/
def call (s : Syslog) : Call → Out Syslog
  | .channel sev => do
    let (s, _) ← s.channel sev
    return s
  | .testMode => .ret s.testMode
  | .sub name => s.subSyslog name

/-- Running a history of calls. -/
def calls (s : Syslog) : List Call → Out Syslog
  | [] => .ret s
  | c :: r => do
    let s ← s.call c
    s.calls r

end Syslog
end Syslog5424

/-! ## `Channel` called by several goroutines

`Channel` has no lock. Here it is cut into its accesses to the shared field `channels`, so that calls of several
goroutines can be interleaved. The interleavings are sequentially consistent, which is weaker than what the Go
memory model allows for such a race: every execution here is one that can happen. -/
namespace Syslog5424.Syslog

/-- Where a goroutine is inside `Channel` (syslog.go:62-82): before the test of line 63, before the assignment of
line 64, at the iteration `n` of the loop of line 69, before the read of line 81, returned, crashed. -/
inductive PC where
  | test
  | alloc
  | loop (n : Nat)
  | read
  | done (c : Channel)
  | crash
deriving Repr, DecidableEq

/-- One step of a goroutine inside `Channel(sev)`: the new value of the field `channels` and where the goroutine
is (syslog.go:62-82). -/
def chanStep (s : Syslog) (sev : Int) (channels : Option (List Channel)) : PC → Option (List Channel) × PC
  | .test => (channels, if channels = none then .alloc else .read)
  | .alloc => (some nulls, .loop 0)
  | .loop n =>
    if (n : Int) ≤ s.minSev then
      match channels with
      | some l =>
        if n < l.length then
          (some (l.set n (.tru ⟨Priority.or s.facility n, s.hostname, s.pid, s.appname, b!"-", s.output⟩)), .loop (n + 1))
        else (channels, .crash)
      | none => (channels, .crash)
    else (channels, .read)
  | .read =>
    match channels with
    | some l =>
      if 0 ≤ Priority.severity sev then
        match l[(Priority.severity sev).toNat]? with
        | some c => (channels, .done c)
        | none => (channels, .crash)
      else (channels, .crash)
    | none => (channels, .crash)
  | .done c => (channels, .done c)
  | .crash => (channels, .crash)

/-- Goroutine `g` (which calls `Channel(sev g)`) makes one step; the others do not move. -/
def concStep (s : Syslog) (sev : Nat → Int) (st : Option (List Channel) × (Nat → PC)) (g : Nat) :
    Option (List Channel) × (Nat → PC) :=
  let r := s.chanStep (sev g) st.1 (st.2 g)
  (r.1, fun i => if i = g then r.2 else st.2 i)

/-- A schedule: the goroutine that moves at each step. -/
def concRun (s : Syslog) (sev : Nat → Int) (sched : List Nat) : Option (List Channel) × (Nat → PC) :=
  sched.foldl (s.concStep sev) (s.channels, fun _ => .test)

end Syslog5424.Syslog
