import Verif.Spec.GramFair
import Verif.Spec.SendCalls
/-! # Specification: programs that log to a datagram socket -/
namespace Syslog5424.Spec
open Sender

/-- An endless execution of a sender that several goroutines use: nobody is forgotten by the scheduler, the errors are read, the process lives, the network works at
last, `End` is not called, and a `Write` is one datagram or accepts nothing. -/
structure EndlessSender (t : Transport) (ev : Nat → Option FEvent) (st : Nat → FState) : Prop where
  exec : FExec t ev st
  runner : RunnerScheduled t ev st
  goroutines : ∀ g, Scheduled t g ev st
  errors : ErrorsRead fun n => (st n).s
  lives : ∀ n, (st n).s.crashed = false
  recovers : Recovers (environment ev)
  noEnd : ∀ n g, ev n ≠ some (.call g .endCall)
  whole : ∀ n nb x, ev n = some (.other (.write nb (some x))) → nb = 0

/-- A program: the arguments of `New`, the logger `log0` it makes, its first `Channel` (of severity `sev`), the lines of its goroutines and the execution of its sender. -/
structure LoggingProgram where
  host : Option Bytes
  pid : Nat
  out : Nat
  prio : Int
  app : Bytes
  log0 : Syslog
  log : Syslog
  sev : Int
  chan : Channel
  lines : Nat → Nat → List LogCall
  ev : Nat → Option FEvent
  st : Nat → FState

/-- What the program respects: it logs lines that fit in a datagram. -/
structure LoggingProgram.Logs (t : Transport) (P : LoggingProgram) : Prop where
  pid : P.pid < 2 ^ 63
  new : Syslog.new P.host P.pid P.out P.prio P.app = some P.log0
  first : P.log0.channel P.sev = .ret (P.log, P.chan)
  loggable : ∀ g n, ∀ c ∈ P.lines g n, Loggable c
  ended : ∀ z, Terminator t z → ∀ g n, ∀ c ∈ P.lines g n, ∀ x, IsTrimOf x c.text → x ≠ [] ∧ z ∉ x
  logs : BeginLines P.log P.out P.lines P.ev
  size : ∀ n g m, P.ev n = some (.call g (.send m)) → ∀ b, m.marshal = .ret (.ok b) → (t.encode b).length ≤ 500

/-- Such a program that does not end. -/
structure LoggingProgram.Works (t : Transport) (P : LoggingProgram) : Prop extends P.Logs t where
  endless : EndlessSender t P.ev P.st

end Syslog5424.Spec
