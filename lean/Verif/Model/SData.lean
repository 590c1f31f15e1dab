import Verif.Model.Tokens
import Verif.Model.SDEncoder
/-!
# Model of `sdata/list.go`, `sdata/sd-unknown.go`, `sdata/sd-generic.go` and
`sdata/timequality/tq.go`
-/
namespace Syslog5424

/-- `timequality.TimeQuality` (sdata/timequality/tq.go:25-29). -/
structure TimeQuality where
  tzKnown : Bool
  isSynced : Bool
  syncAccuracy : Option Int
deriving Repr, DecidableEq

/-- The implementations of `sdata.StructuredData`. -/
inductive SD where
  /-- `unknownSD` (sdata/sd-unknown.go:6-12) -/
  | unknown (name : Bytes) (params : List (Bytes × Bytes))
  /-- `timequality.TimeQuality` -/
  | tq (t : TimeQuality)
  /-- `genericSD` (sdata/sd-generic.go:8-11) -/
  | generic (sdid : Bytes) (i : GoRoot)
  /-- an implementation outside the package, known by the result of its `Marshal5424` -/
  | custom (result : Res Bytes)

/-- The first lines shared by the three `Found` methods (sd-unknown.go:46-49, sd-generic.go:48-51,
tq.go:61-64): the element must start with '[' and end with ']', which are removed; `none` is
`return nil, false`. -/
def openElement (data : Slice) : Out (Option Slice) := do
  let c0 ← data.at_ 0
  if c0 ≠ LBRK then return none
  let cl ← data.at_ (data.len - 1)
  if cl ≠ RBRK then return none
  let data ← data.sub 1 (data.len - 1)
  return some data

/-! ### timeQuality -/

/-- `TimeQuality.IsValid` (tq.go:136-138). -/
def TimeQuality.isValid (t : TimeQuality) : Bool :=
  !((!t.tzKnown && t.isSynced) || (!t.isSynced && t.syncAccuracy.isSome))

/-- Whether the capacity computed at tq.go:146-158 is a legal argument of `make`. The float
expression `int(math.Floor(math.Log(float64(x))+1))` is a small positive number for `x > 0`; for
`x = 0` it is `int(-Inf)` and for `x < 0` `int(NaN)`, which on amd64 are the smallest int, so the
capacity is negative and `make` panics. -/
def tqCapOk (t : TimeQuality) : Bool :=
  match t.syncAccuracy with
  | none => true
  | some x => 0 < x

/-- `TimeQuality.Marshal5424` (tq.go:141-176). -/
def TimeQuality.marshal (t : TimeQuality) : Res Bytes :=
  if !t.isValid then .ret (.error .invalidTimeQuality)
  else if !tqCapOk t then .panic
  else .ret (.ok (
    b!"[timeQuality"
    ++ (if t.tzKnown then b!" tzKnown=\"1\"" else [])
    ++ (if t.isSynced then b!" isSynced=\"1\"" else [])
    ++ (match t.syncAccuracy with
        | some x => b!" syncAccuracy=\"" ++ intDec x ++ [DQ]
        | none => [])
    ++ [RBRK]))

/-- The `switch name` of `tqdef.Found` (tq.go:93-120); `none` is `return nil, false`. -/
def tqAssign (t : TimeQuality) (name value : Bytes) : Option TimeQuality :=
  if name = b!"tzKnown" then
    if value = b!"0" then some { t with tzKnown := false }
    else if value = b!"1" then some { t with tzKnown := true }
    else none
  else if name = b!"isSynced" then
    if value = b!"0" then some { t with isSynced := false }
    else if value = b!"1" then some { t with isSynced := true }
    else none
  else if name = b!"syncAccuracy" then
    match atoi value with
    | some v => some { t with syncAccuracy := some v }
    | none => none
  else none

/-- The parameter loop of `tqdef.Found` (tq.go:76-121). -/
def tqLoop : Nat → TimeQuality → Bytes → Out (Option TimeQuality)
  | 0, _, _ => .hang
  | fuel + 1, t, data =>
    if data.length = 0 then .ret (some t)
    else
      match nextNonSpace data with
      | none => .ret none
      | some data =>
        match nextSDName data with
        | none => .ret none
        | some (name, step1) =>
          match nextSDValue step1 with
          | none => .ret none
          | some (value, step2) =>
            match tqAssign t name value with
            | none => .ret none
            | some t => tqLoop fuel t step2

/-- `tqdef.Found` (tq.go:60-128). The expression `data[0:11]` may look beyond `len(data)`. -/
def tqFound (data : Slice) : Out (Option SD) := do
  match ← openElement data with
  | none => return none
  | some data =>
    let h ← data.sub 0 11
    if h.vis ≠ b!"timeQuality" then return none
    let data ← data.from_ 11
    if data.len = 0 then return some (.tq ⟨false, false, none⟩)
    let r ← tqLoop (data.len + 1) ⟨false, false, none⟩ data.vis
    match r with
    | none => return none
    | some t => if !t.isValid then return none else return some (.tq t)

/-! ### unknown structured data -/

/-- The parameter loop of `unknownDef.Found` (sd-unknown.go:62-80). -/
def unknownLoop : Nat → List (Bytes × Bytes) → Bytes → Out (Option (List (Bytes × Bytes)))
  | 0, _, _ => .hang
  | fuel + 1, acc, data =>
    if data.length = 0 then .ret (some acc)
    else
      match nextNonSpace data with
      | none => .ret none
      | some data =>
        match nextSDName data with
        | none => .ret none
        | some (name, step1) =>
          match nextSDValue step1 with
          | none => .ret none
          | some (value, step2) => unknownLoop fuel (acc ++ [(name, value)]) step2

/-- `unknownDef.Found` (sd-unknown.go:45-83). -/
def unknownFound (data : Slice) : Out (Option SD) := do
  match ← openElement data with
  | none => return none
  | some data =>
    match nextHeader data.vis with
    | none => return none
    | some (header, data) =>
      if data.length = 0 then return some (.unknown header [])
      let r ← unknownLoop (data.length + 1) [] data
      match r with
      | none => return none
      | some m => return some (.unknown header m)

/-- The loop of `unknownSD.Marshal5424` (sd-unknown.go:92-94). -/
def unknownParams : List (Bytes × Bytes) → Bytes
  | [] => []
  | (k, v) :: r => SP :: (k ++ [EQC, DQ] ++ v ++ [DQ]) ++ unknownParams r

/-- `unknownSD.Marshal5424` (sd-unknown.go:89-99). -/
def unknownMarshal (name : Bytes) (params : List (Bytes × Bytes)) : Bytes :=
  LBRK :: (name ++ unknownParams params ++ [RBRK])

/-! ### generic structured data -/

/-- `genericSDID.Found` (sd-generic.go:47-64), for the identifier `header`. -/
def genericFound (header : Bytes) (data : Slice) : Out (Option SD) := do
  match ← openElement data with
  | none => return none
  | some data =>
    let h ← data.sub 0 header.length
    if h.vis ≠ header then return none
    let data ← data.from_ header.length
    if data.len = 0 then return some (.generic header .nil)
    return none

/-! ### StructuredData.Marshal5424 and List -/

/-- `Marshal5424` of each implementation (sd-unknown.go:89-99, tq.go:141-176, sd-generic.go:70-77). -/
def SD.marshal : SD → Res Bytes
  | .unknown n ps => .ret (.ok (unknownMarshal n ps))
  | .tq t => t.marshal
  | .generic _ i => encodeRoot i
  | .custom r => r

/-- `List.Marshal5424` (sdata/list.go:85-107) and `List.MarshalText` (sdata/list.go:116-118). `EmptyList`
(sdata/list.go:27-29, sdata-helper.go:12-14) is the empty list. -/
def sdListMarshal (l : List SD) : Res Bytes :=
  if l.length = 0 then .ret (.ok b!"-")
  else encodeAll SD.marshal l

/-! ### Registry (sdata/list.go) -/

/-- An `SDID` as far as the registry uses it: `String()` and `Found`. -/
structure SDID where
  key : Bytes
  found : Slice → Out (Option SD)

/-- `timequality.tqdef` (tq.go:22,32-34). `init` (tq.go:11-13) registers it. `Options`, `SetOptions` and `Default`
(tq.go:36-46) are never called by the package; neither are those of the other two identifiers (sd-unknown.go:21-31,
sd-generic.go:23-29). -/
def tqSDID : SDID := ⟨b!"TimeQuality", tqFound⟩

/-- `genericSDID` as an SDID (sd-generic.go:19-21,47-64). -/
def genericSDID (header : Bytes) : SDID := ⟨header, genericFound header⟩

/-- `Register` (sdata/list.go:54-63): the new content of the registry (a map, so a list of entries
without repeated keys, in no particular order). -/
def register (reg : List SDID) (s : SDID) : List SDID :=
  if reg.any (·.key == s.key) then reg else reg ++ [s]

/-- `RegisterGroup` (sdata/list.go:66-76). -/
def registerGroup (reg : List SDID) (ss : List SDID) : List SDID := ss.foldl register reg

/-- `Parse` (sdata/list.go:49-51) and `registryT.Found` (sdata/list.go:35-46); the first argument lists the registered SDIDs in map
iteration order. -/
def registryFound : List SDID → Slice → Out (Option SD)
  | [], data => unknownFound data
  | s :: r, data =>
    match s.found data with
    | .ret (some sd) => .ret (some sd)
    | .ret none => registryFound r data
    | .panic => .panic
    | .hang => .hang

end Syslog5424
