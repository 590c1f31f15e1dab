import Verif.Model.Registry
/-! # Specification: what a registry answers when it is used by one goroutine -/
namespace Syslog5424.Spec
open Registry

/-- A history of a program with these SDIDs. -/
def RegHistory (env : Env) (es : List Registry.Event) (s : Registry.State) : Prop := Registry.run env Registry.init es = some s

/-- Which SDID has each name. -/
abbrev Names := Bytes → Option Nat

/-- A name that is taken stays. -/
def Names.put (env : Env) (t : Names) (id : Nat) : Names := fun k => if k = env.key id then some ((t k).getD id) else t k

/-- One call, from the names `t` to the names `t'`. -/
inductive Does (env : Env) : Names → Call → Ret → Names → Prop where
  /-- `Register` returns what it is given. -/
  | register (t id) : Does env t (.register id) (.registered id) (t.put env id)
  /-- All those of a group, in order. -/
  | registerGroup (t ids) : Does env t (.registerGroup ids) .grouped (ids.foldl (Names.put env) t)
  /-- The answer of a registered SDID that recognises the data. -/
  | recognised {t k id data sd} (hk : t k = some id) (ha : env.found id data = .done (.ret (some sd))) :
      Does env t (.parse data) (.parsed (.ret (some sd))) t
  /-- No registered SDID recognises the data. -/
  | unknown {t data o} (hn : ∀ k id, t k = some id → env.found id data = .done (.ret none)) (ho : unknownFound data = o) :
      Does env t (.parse data) (.parsed o) t
  /-- A registered SDID panics. -/
  | panics {t k id data} (hk : t k = some id) (ha : env.found id data = .done .panic) :
      Does env t (.parse data) (.parsed .panic) t

/-- Calls one after the other. -/
inductive OneByOne (env : Env) : Names → List (Nat × Call × Ret) → Names → Prop where
  | nil (t) : OneByOne env t [] t
  | cons {t t' t'' g c r l} (h : Does env t c r t') (hl : OneByOne env t' l t'') : OneByOne env t ((g, c, r) :: l) t''

/-- The calls of one goroutine. -/
def callsOf (g : Nat) : List Registry.Event → List Call
  | [] => []
  | .call x c :: r => if x = g then c :: callsOf g r else callsOf g r
  | _ :: r => callsOf g r

/-- A call that registers an SDID with this name. -/
def Registers (env : Env) (k : Bytes) : Call → Prop
  | .register id => env.key id = k
  | .registerGroup ids => ∃ id ∈ ids, env.key id = k
  | .parse _ => False

/-- `Found` does not call the package and returns or panics. -/
def LeafSDIDs (env : Env) : Prop := ∀ id data, ∃ o, env.found id data = .done o ∧ o ≠ .hang

end Syslog5424.Spec
