import Verif.Model.SyslogShared
/-! # Specification: data races on a shared `Syslog`, after the Go memory model -/
namespace Syslog5424.Spec
open Shared (Event Op Access)

/-- In the execution `evs` that begins with the object `s`, event number `i` makes the access `a`. -/
def Touches (s : Syslog) (evs : List Event) (i : Nat) (a : Access) : Prop :=
  ∃ st e, Shared.run (Shared.init s) (evs.take i) = some st ∧ evs[i]? = some e ∧ a ∈ Shared.accesses st e

/-- Happens before: the events of one goroutine are ordered as they happen, and `sync` is what the program of the user orders, with
locks, channels or `go` statements of its own, which it can only do between the return of a call and another call. -/
inductive Before (evs : List Event) (sync : Nat → Nat → Prop) : Nat → Nat → Prop
  | program {i j : Nat} {a b : Event} : i < j → evs[i]? = some a → evs[j]? = some b → a.goroutine = b.goroutine → Before evs sync i j
  | user {i j g r h o} : i < j → evs[i]? = some (.ret g r) → evs[j]? = some (.call h o) → sync i j → Before evs sync i j
  | trans {i j k : Nat} : Before evs sync i j → Before evs sync j k → Before evs sync i k

/-- A data race: two accesses to one location by two goroutines, at least one of them writes, and nothing orders them. -/
def DataRace (s : Syslog) (evs : List Event) (sync : Nat → Nat → Prop) (i j : Nat) : Prop :=
  i < j ∧ (∃ a b, evs[i]? = some a ∧ evs[j]? = some b ∧ a.goroutine ≠ b.goroutine) ∧
    (∃ a b, Touches s evs i a ∧ Touches s evs j b ∧ a.loc = b.loc ∧ (a.write = true ∨ b.write = true)) ∧ ¬ Before evs sync i j

/-- Event number `r` is the return of the call which is event number `i`. -/
def ReturnOf (evs : List Event) (i r : Nat) : Prop :=
  ∃ g o x, evs[i]? = some (.call g o) ∧ evs[r]? = some (.ret g x) ∧ i < r ∧ ∀ (k : Nat) y, i < k → k < r → evs[k]? ≠ some (.ret g y)

/-- The call number `i` has returned before the call number `j` was made, and the program makes sure of it. -/
def Precedes (evs : List Event) (sync : Nat → Nat → Prop) (i j : Nat) : Prop := ∃ r, ReturnOf evs i r ∧ Before evs sync r j

/-- Calls that must not overlap, whatever the object: `TestMode` with `TestMode` and `SubSyslog`, an assignment of `Now` with another and
with `Log`. -/
def Exclusive : Op → Op → Prop
  | .testMode, .testMode => True
  | .testMode, .sub _ => True
  | .sub _, .testMode => True
  | .setNow, .setNow => True
  | .setNow, .log => True
  | .log, .setNow => True
  | _, _ => False

/-- The program keeps apart the calls that must not overlap. -/
def Careful (evs : List Event) (sync : Nat → Nat → Prop) : Prop :=
  ∀ i j g h a b, evs[i]? = some (.call g a) → evs[j]? = some (.call h b) → g ≠ h → Exclusive a b →
    Precedes evs sync i j ∨ Precedes evs sync j i

/-- An object on which `Channel` has returned once, or that `SubSyslog` has returned, made from an object of `New` by any calls. -/
def ReadyToShare (s : Syslog) : Prop :=
  ∃ host pid out p app s0 history s1, pid < 2 ^ 63 ∧ Syslog.new host pid out p app = some s0 ∧ s0.calls history = .ret s1 ∧
    ((∃ sev c, s1.channel sev = .ret (s, c)) ∨ ∃ name, s1.subSyslog name = .ret s)

end Syslog5424.Spec
