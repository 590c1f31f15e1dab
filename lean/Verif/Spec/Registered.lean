import Verif.Props.TestKit
/-! # Specification: structured data read with registered identifiers -/
namespace Syslog5424.Spec

/-- `i` is one of the two kinds of identifiers of the package, `timequality.SDID` (which `import`ing the package
registers) or that of `GenericSDID(name)`, and the element `b` is long enough for it: at least as long as `[timeQuality`
resp. `[name`, without counting its last byte. -/
def Fits (i : SDID) (b : Bytes) : Prop :=
  i = tqSDID ∧ 12 ≤ b.length ∨ ∃ n, IsName n ∧ i = genericSDID n ∧ n.length < b.length

/-- What a value that was sent must arrive as, where the `timequality` package is imported: if its text is a timeQuality
element of the RFC, the `TimeQuality` that says the same; any other well formed element with parameters, its identifier
and its parameters. -/
inductive ArrivesAs (v : SD) : SD → Prop
  | quality {b : Bytes} {t : TimeQuality} : v.marshal = .ret (.ok b) → IsTqText b t → ArrivesAs v (.tq t)
  | other {id : Bytes} {ps : List (Bytes × Bytes)} : v.marshal = .ret (.ok (elementText id ps)) → WellFormed id ps → ps ≠ [] →
      (∀ t, ¬ IsTqText (elementText id ps) t) → ArrivesAs v (.unknown id ps)

end Syslog5424.Spec
