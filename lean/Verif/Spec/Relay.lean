import Verif.Spec.Reconnect
/-! # Specification: a program that forwards what it receives

`m, _, _ := receiver.Receive(); sender.Send(m.Writable())`, again and again. -/
namespace Syslog5424.Spec

/-- The messages that the theorems on delivery speak of, for each transport. -/
def Travels : Transport → Message → Prop
  | .rfc5425, m => Transmissible m
  | .lfEnded, m => TransmissibleLine 10 m
  | .zeroEnded, m => TransmissibleLine 0 m

/-- With the identifiers `reg` registered, every structured data element of the message is read as a value that is written
as this element again. -/
def Reproduces (reg : List SDID) (m : Message) : Prop := ∀ v ∈ m.sd, ∃ w, ReadAs reg v w ∧ w.marshal = v.marshal

/-- A program, with the identifiers `reg` registered, that has given `ms` to `Send`: the first messages of those that
`Receive` returned, in order, each made writable. -/
def Forwards (reg : List SDID) (got : List (Nat × Tok.Delivered)) (ms : List Message) : Prop :=
  Each (fun x m => x.2.msg.writable reg = .ret m) (got.take ms.length) ms

/-- What is received behind a program that forwards `got`, in order, with the connections on which it came to this
program. -/
def labelled (got : List (Nat × Tok.Delivered)) (ds : List Tok.Delivered) : List (Nat × Tok.Delivered) := List.zip (got.map (·.1)) ds

/-- `RelayedAs regs m w`: the message `w` was made from `m` by as many programs as there are members of `regs`, each of
which received what the one before it had sent, and made it writable with its identifiers. -/
inductive RelayedAs : List (List SDID) → Message → Message → Prop
  | here {m : Message} : RelayedAs [] m m
  | hop {regs : List (List SDID)} {reg : List SDID} {m w w' : Message} {d : Tok.Delivered} :
      RelayedAs regs m w → IsReceived w d → d.msg.writable reg = .ret w' → RelayedAs (regs ++ [reg]) m w'

end Syslog5424.Spec
