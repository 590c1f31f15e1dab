import Verif.Go
/-! # Specification: names of facilities and severities (RFC 5424 section 6.2.1, syslog.conf names) -/
namespace Syslog5424.Spec

/-- Facility names with their numerical codes; codes 12 to 15 have no name in this package. -/
def facilities : List (Bytes × Nat) :=
  [ (b!"kern", 0), (b!"user", 1), (b!"mail", 2), (b!"daemon", 3), (b!"auth", 4), (b!"syslog", 5),
    (b!"lpr", 6), (b!"news", 7), (b!"uucp", 8), (b!"cron", 9), (b!"authpriv", 10), (b!"ftp", 11),
    (b!"local0", 16), (b!"local1", 17), (b!"local2", 18), (b!"local3", 19),
    (b!"local4", 20), (b!"local5", 21), (b!"local6", 22), (b!"local7", 23) ]

/-- Severity names with their numerical codes. -/
def severities : List (Bytes × Nat) :=
  [ (b!"emerg", 0), (b!"alert", 1), (b!"crit", 2), (b!"err", 3),
    (b!"warning", 4), (b!"notice", 5), (b!"info", 6), (b!"debug", 7) ]

/-- `s` is `facility.severity` and denotes the priority value `p`. -/
def Denotes (s : Bytes) (p : Int) : Prop :=
  ∃ f ∈ facilities, ∃ v ∈ severities, s = f.1 ++ [46] ++ v.1 ∧ p = 8 * f.2 + v.2

end Syslog5424.Spec
