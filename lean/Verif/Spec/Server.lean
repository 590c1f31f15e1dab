import Verif.Spec.Exit
import Verif.Spec.Reconnect
/-! # Specification: programs that log to one server over stream connections -/
namespace Syslog5424.Spec
open Sender

/-- The messages that a stream transport carries: of less than 2^62 bytes for RFC 5425; for LF and NUL without structured data, with a text that is not empty
and does not contain the terminator. -/
def TravelsOver (t : Transport) (m : Message) : Prop :=
  (t = .rfc5425 → Transmissible m) ∧ ∀ z, Terminator t z → TransmissibleLine z m

/-- The lines that say such messages. -/
def LineTravelsOver (t : Transport) (c : LogCall) : Prop := (t = .rfc5425 → Loggable c) ∧ ∀ z, Terminator t z → LoggableLine z c

/-- The connections between the senders of `count` programs, whose states are `st p n`, and a receiver: connection `j` of program `p` is connection `f p j` of
the receiver, no other one is; nothing is lost on the way; the goroutine of the receiver that reads it is scheduled. -/
structure ServerLinks (t : Transport) (lenQueue count : Nat) (st : Nat → Nat → Sender.State) (f : Nat → Nat → Nat)
    (er : Nat → Option Recv.Event) (sr : Nat → Recv.State) : Prop where
  distinct : ∀ p j p' j', p < count → p' < count → Opened (st p) j → Opened (st p') j' → f p j = f p' j' → p = p' ∧ j = j'
  links : ∀ p, p < count → Links (st p) (f p) er
  served : ∀ p j, p < count → Opened (st p) j → Served t lenQueue (f p j) er sr ∧ ∃ n, f p j < (sr n).conns.length

/-- A program that goes on for ever, or that calls `End` at the moment `n`, waits until it returns, and may then exit. -/
def RunsOrExits (t : Transport) (ev : Nat → Option FEvent) (st : Nat → FState) (n : Nat) : Prop :=
  EndlessSender t ev st ∨ ∃ k, EndsAndExits t ev st n k

/-- Messages given to `Send` by goroutines of a program, each call at most once, those of one goroutine in its order. -/
def SomeGiven (ev : Nat → Option FEvent) (a : List (Nat × Message)) : Prop :=
  ∃ n, ∀ g, (ofGoroutine g a).Sublist (givenBy g (past ev n))

/-- What a program that logs over such a connection respects. -/
structure LoggingProgram.LogsStream (t : Transport) (P : LoggingProgram) : Prop where
  pid : P.pid < 2 ^ 63
  new : Syslog.new P.host P.pid P.out P.prio P.app = some P.log0
  first : P.log0.channel P.sev = .ret (P.log, P.chan)
  loggable : ∀ g n, ∀ c ∈ P.lines g n, LineTravelsOver t c
  logs : BeginLines P.log P.out P.lines P.ev
  size : ∀ n g m, P.ev n = some (.call g (.send m)) → ∀ b, m.marshal = .ret (.ok b) → b.length < 2 ^ 62

end Syslog5424.Spec
