import Verif.Spec.Frame
import Verif.Model.Syslog
import Verif.Spec.EndToEnd
/-! # Specification: what a program that logs relies on -/
namespace Syslog5424.Spec

/-- One line of a program that logs:
`syslog.Channel(sev).AppName(names[0])...AppName(names[n-1]).Msgid(id).Log(text, sd...)`, without the `Msgid` when `id` is
`none`, and with `Write([]byte(text))` instead of `Log` when `sd` is `none`; `now` is the time at which it runs. -/
structure LogCall where
  sev : Int
  names : List Bytes
  id : Option Bytes
  now : Time
  text : Bytes
  sd : Option (List SD)

/-- Running such a line: the channel, the calls on it, what is given to `Send`. -/
def LogCall.run (s : Syslog) (c : LogCall) : Out (Syslog × Sent) := do
  let (s, ch) ← s.channel c.sev
  let ch := c.names.foldl Channel.appName ch
  let ch := match c.id with
    | none => ch
    | some x => ch.msgid x
  return (s, match c.sd with
    | none => (ch.write c.now c.text).2
    | some sd => ch.log c.now c.text sd)

/-- Running a list of such lines. -/
def logAll (s : Syslog) : List LogCall → Out (Syslog × Sent)
  | [] => .ret (s, [])
  | c :: r => do
    let (s, a) ← c.run s
    let (s, b) ← logAll s r
    return (s, a ++ b)

/-- The lines that are not filtered out by the threshold `p`. -/
def passing (p : Int) (cs : List LogCall) : List LogCall := cs.filter fun c => c.sev % 8 ≤ p % 8

/-- The application name after `AppName` was called with these names: joined with `/` and sanitised, step by step. -/
inductive AppPath (app : Bytes) : List Bytes → Bytes → Prop
  | base {r : Bytes} : IsSanitised 48 app r → AppPath app [] r
  | step {ns : List Bytes} {n r r' : Bytes} : AppPath app ns r → IsSanitised 48 (if r = b!"-" then n else r ++ b!"/" ++ n) r' →
      AppPath app (ns ++ [n]) r'

/-- The message a line must send. `host`, `pid`: what the operating system says; `p`, `app`: what was given to `New`. -/
structure SaysMessage (host : Option Bytes) (pid : Nat) (p : Int) (app : Bytes) (c : LogCall) (m : Message) : Prop where
  prio : m.prio = (p % 256 / 8 * 8 + c.sev % 8 : Int)
  timestamp : m.timestamp = c.now
  hostname : IsSanitised 255 (host.getD b!"-") m.hostname
  appname : AppPath app c.names m.appname
  procid : m.procid = natDec pid
  msgid : match c.id with
    | none => m.msgid = b!"-"
    | some x => IsSanitised 32 x m.msgid
  message : IsTrimOf m.message c.text
  sd : m.sd = c.sd.getD []

/-- What `Receive` must return for a line: no error; the facility given to `New` with the severity of the channel; the
time to the microsecond; the host, the application names, the process identifier, the message identifier; the text
without the white space at its end; the structured data, also where identifiers are registered. -/
structure Says (host : Option Bytes) (pid : Nat) (p : Int) (app : Bytes) (c : LogCall) (d : Tok.Delivered) : Prop where
  err : d.err = none
  priority : d.msg.priority = .ret (p % 256 / 8 * 8 + c.sev % 8 : Int)
  timeStamp : d.msg.timeStamp = .ret c.now.microseconds
  hostname : ∃ h, d.msg.hostname = .ret h ∧ IsSanitised 255 (host.getD b!"-") h
  appName : ∃ a, d.msg.appName = .ret a ∧ AppPath app c.names a
  procID : d.msg.procID = .ret (natDec pid)
  msgID : ∃ i, d.msg.msgID = .ret i ∧ (match c.id with
    | none => i = b!"-"
    | some x => IsSanitised 32 x i)
  text : ∃ t, d.msg.textOf = .ret t ∧ IsTrimOf t c.text
  structuredData : ∃ l, d.msg.structuredData [] = .ret l ∧ l.map SD.marshal = (c.sd.getD []).map SD.marshal
  registered : ∀ (reg : List SDID) (f : SD → SD), (∀ v ∈ c.sd.getD [], ReadAs reg v (f v)) →
    d.msg.structuredData reg = .ret ((c.sd.getD []).map f)

/-- Lines whose content can be transmitted: a valid time, well formed structured data with parameters, and, next to structured data, no
`]` in the text, without the white space at its end, but after a backslash and before something else. -/
structure Loggable (c : LogCall) : Prop where
  time : c.now.Valid
  sd : ∃ els, MarshalsTo (c.sd.getD []) els
  text : c.sd.getD [] ≠ [] → ∀ t, IsTrimOf t c.text → FreeText t

/-- Lines whose content can be transmitted with the terminator `z` after it: a valid time, no structured data, and a text
that, without the white space at its end, is not empty and does not contain the terminator. -/
structure LoggableLine (z : UInt8) (c : LogCall) : Prop where
  time : c.now.Valid
  sd : c.sd.getD [] = []
  text : ∀ t, IsTrimOf t c.text → t ≠ [] ∧ z ∉ t

end Syslog5424.Spec
