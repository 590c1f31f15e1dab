import Verif.Go
/-!
# Model of `sdata/tokens.go`

The only thing the callers look at in the errors is whether they are nil, so every error is `none`.
None of these functions slices beyond `len`, so they work on the visible bytes.
-/
namespace Syslog5424

/-- The loop of `NextHeader` (sdata/tokens.go:15-29). `pre` is `data[0:length]`, the second argument
is the local `ret`. -/
def nextHeaderLoop (pre : Bytes) : Bytes → Option (Bytes × Bytes)
  | [] => none
  | c :: r =>
    if c < SP ∨ c = EQC ∨ c = 127 ∨ c = RBRK ∨ c = DQ then none
    else if c = SP then
      if pre.length = 0 then none else some (pre, c :: r)
    else nextHeaderLoop (pre ++ [c]) r

/-- `NextHeader` (sdata/tokens.go:8-31). -/
def nextHeader (data : Bytes) : Option (Bytes × Bytes) :=
  if data.length < 4 then none else nextHeaderLoop [] data

/-- The loop of `NextNonSpace` (sdata/tokens.go:44-51). -/
def nextNonSpaceLoop : Bytes → Option Bytes
  | [] => none
  | c :: r => if c = SP then nextNonSpaceLoop r else some (c :: r)

/-- `NextNonSpace` (sdata/tokens.go:34-53). -/
def nextNonSpace (data : Bytes) : Option Bytes :=
  match data with
  | [] => none
  | c :: _ => if c ≠ SP then none else nextNonSpaceLoop data

/-- The loop of `NextSDName` (sdata/tokens.go:63-75). -/
def nextSDNameLoop (pre : Bytes) : Bytes → Option (Bytes × Bytes)
  | [] => none
  | c :: r =>
    if c ≤ SP ∨ c = 127 ∨ c = RBRK ∨ c = DQ then none
    else if c = EQC then some (pre, r)
    else nextSDNameLoop (pre ++ [c]) r

/-- `NextSDName` (sdata/tokens.go:56-77). -/
def nextSDName (data : Bytes) : Option (Bytes × Bytes) :=
  if data.length < 4 then none else nextSDNameLoop [] data

/-- The loop of `NextSDValue` (sdata/tokens.go:90-111). `pre` is `data[1:length]`. -/
def nextSDValueLoop (pre : Bytes) : Bytes → Option (Bytes × Bytes)
  | [] => none
  | c :: r =>
    if c = BSL then
      match r with
      | [] => none
      | d :: r2 => nextSDValueLoop (pre ++ [c, d]) r2
    else if c = RBRK then none
    else if c = DQ then some (pre, r)
    else nextSDValueLoop (pre ++ [c]) r

/-- `NextSDValue` (sdata/tokens.go:80-113). -/
def nextSDValue (data : Bytes) : Option (Bytes × Bytes) :=
  if data.length < 2 then none
  else
    match data with
    | c :: r => if c ≠ DQ then none else nextSDValueLoop [] r
    | [] => none

end Syslog5424
