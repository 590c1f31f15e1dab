import Verif.Spec.LoggingMany
import Verif.Spec.Server
import Verif.Spec.SendCalls
/-! # Specification: several loggers on one sender -/
namespace Syslog5424.Spec
open Sender

/-- A logger: `New(sender, p, app)`, then `SubSyslog(subs[0])`, on its result `SubSyslog(subs[1])`, and so on. `host` and `pid` are what
the operating system says when `New` runs. -/
structure Logger where
  host : Option Bytes
  pid : Nat
  p : Int
  app : Bytes
  subs : List Bytes

/-- The program has made this logger, it is the object `s`, and `Channel` was called on it (which changes nothing if there is a
`SubSyslog`). -/
def Logger.Made (L : Logger) (out : Nat) (s : Syslog) : Prop :=
  ∃ s0 s1 x c, Syslog.new L.host L.pid out L.p L.app = some s0 ∧ s0.calls (L.subs.map Syslog.Call.sub) = .ret s1 ∧
    s1.channel x = .ret (s, c)

/-- The application name on a logger, after the names given to `SubSyslog` and then those given to `AppName`, joined with `/`. What is
given to `New` and the result of each `AppName` are sanitised; the name given to `SubSyslog` is not. -/
inductive NamePath (app : Bytes) : List Bytes → List Bytes → Bytes → Prop
  | new {r : Bytes} : IsSanitised 48 app r → NamePath app [] [] r
  | sub {ss : List Bytes} {n r : Bytes} : NamePath app ss [] r → NamePath app (ss ++ [n]) [] (if r = b!"-" then n else r ++ b!"/" ++ n)
  | appName {ss ns : List Bytes} {n r r' : Bytes} : NamePath app ss ns r →
      IsSanitised 48 (if r = b!"-" then n else r ++ b!"/" ++ n) r' → NamePath app ss (ns ++ [n]) r'

/-- A program that has several loggers: each line is run on the logger with this number. -/
def logOn (ss : Nat → Syslog) : List (Nat × LogCall) → Out ((Nat → Syslog) × Sent)
  | [] => .ret (ss, [])
  | (k, c) :: r => do
    let (s, a) ← c.run (ss k)
    let (ss, b) ← logOn (fun j => if j = k then s else ss j) r
    return (ss, a ++ b)

/-- The lines that pass the threshold of their logger. -/
def passingOn (L : Nat → Logger) (cs : List (Nat × LogCall)) : List (Nat × LogCall) :=
  cs.filter fun c => c.2.sev % 8 ≤ (L c.1).p % 8

/-- A goroutine that runs the log lines `cs` on these loggers has given these messages to `Send` up to now. -/
def RunsOn (ss : Nat → Syslog) (out : Nat) (cs : List (Nat × LogCall)) (ms : List Message) : Prop :=
  ∃ all, logOn ss cs = .ret (ss, all.map fun m => (out, m)) ∧ ms <+: all

/-- `a` is an interleaving of the log lines (those that pass) that the goroutines have run in the history `h`: of every goroutine, its lines
from the first one on in the order of its program, all those that have returned, and none that it has not begun. -/
def InterleavingOn (L : Nat → Logger) (prog : Nat → List (Nat × LogCall)) (h : List FEvent) (a : List (Nat × (Nat × LogCall))) : Prop :=
  ∀ g, ofGoroutine g a <+: passingOn L (prog g) ∧ (returnedBy g h).length ≤ (ofGoroutine g a).length ∧
    (ofGoroutine g a).length ≤ (givenBy g h).length

/-- What `Receive` must return for a line on a logger: no error; the facility of the logger with the severity of the line; the time to the
microsecond; the host, the application name, the process identifier of the logger, the names and the message identifier of the line; the
text without the white space at its end; the structured data. -/
structure SaysOn (L : Logger) (c : LogCall) (d : Tok.Delivered) : Prop where
  err : d.err = none
  priority : d.msg.priority = .ret (L.p % 256 / 8 * 8 + c.sev % 8 : Int)
  timeStamp : d.msg.timeStamp = .ret c.now.microseconds
  hostname : ∃ h, d.msg.hostname = .ret h ∧ IsSanitised 255 (L.host.getD b!"-") h
  appName : ∃ a, d.msg.appName = .ret a ∧ NamePath L.app L.subs c.names a
  procID : d.msg.procID = .ret (natDec L.pid)
  msgID : ∃ i, d.msg.msgID = .ret i ∧ (match c.id with
    | none => i = b!"-"
    | some x => IsSanitised 32 x i)
  text : ∃ t, d.msg.textOf = .ret t ∧ IsTrimOf t c.text
  structuredData : ∃ l, d.msg.structuredData [] = .ret l ∧ l.map SD.marshal = (c.sd.getD []).map SD.marshal
  registered : ∀ (reg : List SDID) (f : SD → SD), (∀ v ∈ c.sd.getD [], ReadAs reg v (f v)) →
    d.msg.structuredData reg = .ret ((c.sd.getD []).map f)

/-- Lines that the transport carries on this logger: as with one logger; and, if the line gives no name to `AppName`, the name that the
calls of `SubSyslog` have put together must be valid. -/
structure TravelsOn (t : Transport) (L : Logger) (c : LogCall) : Prop where
  pid : L.pid < 2 ^ 63
  line : LineTravelsOver t c
  name : c.names = [] → ∀ r, NamePath L.app L.subs [] r → ValidField 48 r

/-- Goroutines that log for ever: at the moment `n` goroutine `g` has begun the lines `prog g n`, each on one of these loggers, and these have
given to `Send` what it has given. -/
def BeginOn (ss : Nat → Syslog) (out : Nat) (prog : Nat → Nat → List (Nat × LogCall)) (ev : Nat → Option FEvent) : Prop :=
  (∀ g n m, n ≤ m → prog g n <+: prog g m) ∧ ∀ g n, logOn ss (prog g n) = .ret (ss, (givenBy g (past ev n)).map fun m => (out, m))

/-- `a` is an interleaving of lines (of those that pass) of the goroutines: of every goroutine the lines in its order, all those that it has
begun before the moment `n`. -/
def BeforeOn (L : Nat → Logger) (prog : Nat → Nat → List (Nat × LogCall)) (n : Nat) (a : List (Nat × (Nat × LogCall))) : Prop :=
  ∃ n', ∀ g, passingOn L (prog g n) <+: ofGoroutine g a ∧ ofGoroutine g a <+: passingOn L (prog g n')

/-- A program with several loggers on one sender: the loggers and the objects that they are, the lines of its goroutines, the execution of its sender. -/
structure LoggersProgram where
  loggers : Nat → Logger
  objects : Nat → Syslog
  out : Nat
  lines : Nat → Nat → List (Nat × LogCall)
  ev : Nat → Option FEvent
  st : Nat → FState

/-- What such a program respects: it has made its loggers, its goroutines log on them, and its lines can travel. -/
structure LoggersProgram.Logs (t : Transport) (P : LoggersProgram) : Prop where
  made : ∀ k, (P.loggers k).Made P.out (P.objects k)
  begins : BeginOn P.objects P.out P.lines P.ev
  travels : ∀ g n, ∀ c ∈ P.lines g n, TravelsOn t (P.loggers c.1) c.2
  size : t = .rfc5425 → ∀ n g m, P.ev n = some (.call g (.send m)) → ∀ b, m.marshal = .ret (.ok b) → b.length < 2 ^ 62

/-- Lines that fit in a datagram, on this logger: the text must not be empty or contain the terminator of the frames, if they have one. -/
structure FitsOn (t : Transport) (L : Logger) (c : LogCall) : Prop where
  pid : L.pid < 2 ^ 63
  line : Loggable c
  ended : ∀ z, Terminator t z → ∀ x, IsTrimOf x c.text → x ≠ [] ∧ z ∉ x
  name : c.names = [] → ∀ r, NamePath L.app L.subs [] r → ValidField 48 r

/-- What a program with several loggers respects, when it sends to a datagram socket. -/
structure LoggersProgram.LogsGram (t : Transport) (P : LoggersProgram) : Prop where
  made : ∀ k, (P.loggers k).Made P.out (P.objects k)
  begins : BeginOn P.objects P.out P.lines P.ev
  fits : ∀ g n, ∀ c ∈ P.lines g n, FitsOn t (P.loggers c.1) c.2
  size : ∀ n g m, P.ev n = some (.call g (.send m)) → ∀ b, m.marshal = .ret (.ok b) → (t.encode b).length ≤ 500

end Syslog5424.Spec
