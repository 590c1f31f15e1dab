import Verif.Model.Net
/-! # Specification: dialing and listening -/
namespace Syslog5424.Spec
open Net

/-- The bytes of the datagrams, in order. -/
def payload (q : List Recv) : Bytes := q.flatMap fun r => match r with | .datagram d => d | .error => []

/-- The bytes a sequence of `Read` returned. -/
def readBytes (l : List (Bytes × Bool)) : Bytes := l.flatMap Prod.fst

/-- How many errors there are among the answers of the system, and among the results. -/
def errorsIn (q : List Recv) : Nat := (q.filter fun r => decide (r = .error)).length
def errorsOut (l : List (Bytes × Bool)) : Nat := (l.filter fun x => x.2).length

/-- The documented networks. -/
def networks : List Bytes := [b!"stdio", b!"local", b!"unix", b!"unixgram", b!"tcp", b!"tcp4", b!"tcp6"]

/-- The common transport of each network. -/
def commonTransport (network : Bytes) : Transport :=
  if network ∈ [b!"local", b!"unix", b!"unixgram"] then .zeroEnded else .lfEnded

/-- The places where a local syslog daemon listens, in the order in which they are tried. -/
def places : List (Bytes × Bytes) :=
  [(b!"unix", b!"/var/run/syslog"), (b!"unix", b!"/var/run/log"), (b!"unix", b!"/dev/log"),
   (b!"unixgram", b!"/var/run/syslog"), (b!"unixgram", b!"/var/run/log"), (b!"unixgram", b!"/dev/log")]

/-- `p` is the first element of `l` that accepts, `tried` the elements up to it. -/
def FirstThat {α : Type} (accepts : α → Prop) (l : List α) (p : α) (tried : List α) : Prop :=
  ∃ before after, l = before ++ p :: after ∧ tried = before ++ [p] ∧ accepts p ∧ ∀ x ∈ before, ¬ accepts x

/-- The addresses of the wanted family. -/
def Family (network : Bytes) (ip : IP) : Prop :=
  (network = b!"tcp4" → ip.v4 = true) ∧ (network = b!"tcp6" → ip.v4 = false)

instance (network : Bytes) (ip : IP) : Decidable (Family network ip) := inferInstanceAs (Decidable (_ ∧ _))

end Syslog5424.Spec
