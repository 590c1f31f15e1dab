import Verif.Model.Net
import Verif.Model.Sender
/-!
# The sender that `Dial` returns: what its connector allows

`Dialer.Dial` (dialer.go:78-79) gives the connector and the ticker to `NewSender`. Here: which answers of `Connect`,
which ticks and which connections the connector of `connector-fd.go` and `connector-invalid.go` leaves possible.
-/
namespace Syslog5424.Net

/-- A file of the process (package `os`): `os.Stderr`, `os.Stdout`. -/
inductive ProcessFile where
  | stderr
  | stdout
deriving Repr, DecidableEq

/-- The file that every `Connect` of the connector returns (connector-fd.go:15-17,20-22, with
`ConnectorFunc.Connect`, connector.go:48-50): always the same one. -/
def Connector.file : Connector → Option ProcessFile
  | .stderr => some .stderr
  | .stdout => some .stdout
  | _ => none

/-- Whether `Connect` can succeed (`true`) or fail (`false`): `InvalidConnector.Connect` always fails
(connector-invalid.go:11-13), the functions of connector-fd.go never do; the others depend on the operating system. -/
def Connector.can : Connector → Bool → Bool
  | .invalid _, ok => !ok
  | .stderr, ok => ok
  | .stdout, ok => ok
  | .loc _ _, _ => true
  | .tcp _ _, _ => true

/-- Whether an event can happen to the sender of `d` (dialer.go:34-40,78-79): the answers of `Connect` are those of the
connector, and without a period the ticker never ticks. -/
def Dialed.can (d : Dialed) : Sender.Event → Bool
  | .connect r => d.connector.can r.isNone
  | .tick => d.period.isSome
  | _ => true

end Syslog5424.Net
