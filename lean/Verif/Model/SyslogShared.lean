import Verif.Model.Syslog
/-!
# Model of `syslog.go` and of the variable `Now`: a `Syslog` shared by several goroutines

Nothing in syslog.go and channel.go takes a lock. The methods of a `Syslog` are cut here into steps. A step touches at
most one of the memory locations that something in the package (or, for `Now`, the user) writes after the object is
built; the reads of the fields that nobody writes are in the same step as the access that follows them. Each step lists
all the locations it touches. The objects that a call builds and returns (a new `Syslog`, a `trueChannel`) are not
locations: nobody else knows them before the call has returned them or put them in the table, and they are not modified
afterwards.
-/
namespace Syslog5424.Shared

/-- The memory locations: the fields of `Syslog` (syslog.go:14-22), the entries of the array of `channels`, and the
variable `Now` (channel.go:11-14). -/
inductive Loc where
  | facility
  | hostname
  | pid
  | appname
  | channels
  | entry (n : Nat)
  | output
  | minSev
  | now
deriving Repr, DecidableEq

/-- An access to a location. -/
structure Access where
  loc : Loc
  write : Bool
deriving Repr, DecidableEq

/-- What a goroutine does with the shared `Syslog`: `Channel` (syslog.go:62), `TestMode` (syslog.go:56), `SubSyslog`
(syslog.go:86); with a channel taken from it: `Log` or `Write` (channel.go:94-107); and, in tests, assigning the variable
`Now` (channel.go:13). -/
inductive Op where
  | channel (sev : Int)
  | testMode
  | sub (name : Bytes)
  | log
  | setNow
deriving Repr, DecidableEq

/-- What a call returns. -/
inductive Res where
  | channel (c : Channel)
  | sub (s : Syslog)
  | unit
deriving Repr, DecidableEq

/-- Where a goroutine is.
`Channel`: before the test of syslog.go:63, the assignment of 64 (the array is filled with `devNull` in that step), the condition of the loop of 69 and the read of the host
name in 72, the read of the process identifier in 73 and the assignment of 70, the read of the table in 81.
`TestMode`: before syslog.go:57 and 58.
`SubSyslog`: before the read of the host name in syslog.go:98, of the process identifier in 99, the condition of the loop of
109 and the read of the host name in 112, the read of the process identifier in 113 and the assignment of 110.
`Log`, `Write`: before the read of `Now` (channel.go:95,100). -/
inductive At where
  | idle
  | chanTest (sev : Int)
  | chanAlloc (sev : Int)
  | chanHost (sev : Int) (n : Nat)
  | chanPid (sev : Int) (n : Nat) (host : Bytes)
  | chanRead (sev : Int)
  | testHost
  | testPid
  | subHost (name : Bytes)
  | subPid (name host : Bytes)
  | subLoop (sub : Syslog) (n : Nat)
  | subLoopPid (sub : Syslog) (n : Nat) (host : Bytes)
  | log
  | setNow
  | done (r : Res)
  | crash
deriving Repr, DecidableEq

/-- Reading a location. -/
def rd (l : Loc) : Access := ⟨l, false⟩
/-- Writing a location. -/
def wr (l : Loc) : Access := ⟨l, true⟩

/-- The first step of a call. -/
def start : Op → At
  | .channel sev => .chanTest sev
  | .testMode => .testHost
  | .sub name => .subHost name
  | .log => .log
  | .setNow => .setNow

/-- One step of a goroutine: the shared object afterwards, where the goroutine is afterwards, and what it touched
(syslog.go:56-121; channel.go:94-107 for `log`). -/
def step (s : Syslog) : At → Syslog × At × List Access
  | .idle => (s, .idle, [])
  -- Channel
  | .chanTest sev => (s, if s.channels = none then .chanAlloc sev else .chanRead sev, [rd .channels])
  | .chanAlloc sev => ({ s with channels := some Syslog.nulls }, .chanHost sev 0,
    wr .channels :: (List.range 8).map fun n => wr (.entry n))
  | .chanHost sev n =>
    if (n : Int) ≤ s.minSev then (s, .chanPid sev n s.hostname, [rd .minSev, rd .facility, rd .hostname])
    else (s, .chanRead sev, [rd .minSev])
  | .chanPid sev n host =>
    match s.channels with
    | some l =>
      if n < l.length then
        ({ s with channels := some (l.set n (.tru ⟨Priority.or s.facility n, host, s.pid, s.appname, b!"-", s.output⟩)) },
          .chanHost sev (n + 1), [rd .pid, rd .appname, rd .output, rd .channels, wr (.entry n)])
      else (s, .crash, [rd .pid, rd .appname, rd .output, rd .channels])
    | none => (s, .crash, [rd .pid, rd .appname, rd .output, rd .channels])
  | .chanRead sev =>
    match s.channels with
    | some l =>
      if 0 ≤ Priority.severity sev then
        match l[(Priority.severity sev).toNat]? with
        | some c => (s, .done (.channel c), [rd .channels, rd (.entry (Priority.severity sev).toNat)])
        | none => (s, .crash, [rd .channels])
      else (s, .crash, [rd .channels])
    | none => (s, .crash, [rd .channels])
  -- TestMode
  | .testHost => ({ s with hostname := b!"localhost" }, .testPid, [wr .hostname])
  | .testPid => ({ s with pid := b!"1234" }, .done .unit, [wr .pid])
  -- SubSyslog
  | .subHost name => (s, .subPid name s.hostname, [rd .appname, rd .facility, rd .hostname])
  | .subPid name host =>
    (s, .subLoop ⟨s.facility, host, s.pid, if s.appname = b!"-" then name else s.appname ++ b!"/" ++ name,
      some Syslog.nulls, s.output, s.minSev⟩ 0, [rd .pid, rd .output, rd .minSev])
  | .subLoop sub n =>
    if (n : Int) ≤ s.minSev then (s, .subLoopPid sub n s.hostname, [rd .minSev, rd .facility, rd .hostname])
    else (s, .done (.sub sub), [rd .minSev])
  | .subLoopPid sub n host =>
    match sub.channels with
    | some l =>
      if n < l.length then
        let l := l.set n (.tru ⟨Priority.or s.facility n, host, s.pid, sub.appname, b!"-", s.output⟩)
        (s, .subLoop { sub with channels := some l } (n + 1), [rd .pid, rd .output])
      else (s, .crash, [rd .pid, rd .output])
    | none => (s, .crash, [rd .pid, rd .output])
  -- Log, Write and the assignment of Now
  | .log => (s, .done .unit, [rd .now])
  | .setNow => (s, .done .unit, [wr .now])
  | .done r => (s, .done r, [])
  | .crash => (s, .crash, [])

/-- The shared object and where each goroutine is. -/
structure State where
  s : Syslog
  at_ : Nat → At

/-- At first no goroutine is inside a call. -/
def init (s : Syslog) : State := ⟨s, fun _ => .idle⟩

/-- What happens: a goroutine calls, makes one step, or returns with a result. -/
inductive Event where
  | call (g : Nat) (o : Op)
  | step (g : Nat)
  | ret (g : Nat) (r : Res)
deriving Repr, DecidableEq

/-- Goroutine `g` goes to `a`. -/
def State.goto (st : State) (g : Nat) (a : At) : State := ⟨st.s, fun i => if i = g then a else st.at_ i⟩

/-- One event; `none` if it cannot happen: a goroutine calls when it is in no call, and returns when the call is done. -/
def apply (st : State) : Event → Option State
  | .call g o => if st.at_ g = .idle then some (st.goto g (start o)) else none
  | .step g =>
    let r := step st.s (st.at_ g)
    some (State.goto ⟨r.1, st.at_⟩ g r.2.1)
  | .ret g r => if st.at_ g = .done r then some (st.goto g .idle) else none

/-- A sequence of events. -/
def run (st : State) : List Event → Option State
  | [] => some st
  | e :: r => do
    let st ← apply st e
    run st r

/-- What an event touches, in a state. -/
def accesses (st : State) : Event → List Access
  | .step g => (step st.s (st.at_ g)).2.2
  | _ => []

/-- The goroutine of an event. -/
def Event.goroutine : Event → Nat
  | .call g _ => g
  | .step g => g
  | .ret g _ => g

end Syslog5424.Shared
