import Verif.Model.SData
/-!
# Model of the registry of `sdata/list.go` with its lock, used by several goroutines

`Register`, `RegisterGroup` and `Parse` take the same `sync.Mutex` (sdata/list.go:36-37,55-56,67-68), which is not
reentrant, and `Parse` calls the `Found` methods of the registered SDIDs, which any program can implement
(sdata/structured-data.go), while it holds it.

Simplifications: the SDIDs of the program are numbered; `String()` (sdata/list.go:59,71) answers at once, the same each
time. A call ends with its deferred `Unlock`: what a goroutine does between `Unlock` and looking at the result does not
touch the registry. Interleavings are sequentially consistent.
-/
namespace Syslog5424.Registry

/-- The three functions of the package. -/
inductive Call where
  | register (id : Nat)
  | registerGroup (ids : List Nat)
  | parse (data : Slice)

/-- What a call returns; `panic` is in `Out`. -/
inductive Ret where
  | registered (id : Nat)
  | grouped
  | parsed (o : Out (Option SD))

/-- What a `Found` method does: it returns (or panics, or never returns), or calls a function of the package and goes on. -/
inductive Prog where
  | done (o : Out (Option SD))
  | call (c : Call) (k : Ret → Prog)

/-- The SDIDs of a program: `String()` and `Found`. -/
structure Env where
  key : Nat → Bytes
  found : Nat → Slice → Prog

/-- A call in progress. -/
inductive Frame where
  /-- sdata/list.go:36,55,67: waiting for the lock -/
  | want (c : Call)
  /-- sdata/list.go:58-62,70-75: in `Register` or `RegisterGroup`, with the lock -/
  | body (c : Call)
  /-- sdata/list.go:39: at the head of the loop, with the identifiers that were not tried yet -/
  | scan (data : Slice) (rest : List Nat)
  /-- sdata/list.go:40: in `Found` -/
  | found (data : Slice) (rest : List Nat) (p : Prog)
  /-- in `Found`, in a call -/
  | nested (data : Slice) (rest : List Nat) (k : Ret → Prog)

/-- The state: who holds the lock, the map (sdata/list.go:14), the stack of calls of each goroutine (innermost first, empty
when it is not in the package), and the calls that have returned, in order, with the goroutine. -/
structure State where
  lock : Option Nat
  sdids : List (Bytes × Nat)
  stack : Nat → List Frame
  log : List (Nat × Call × Ret)

/-- sdata/list.go:18-21 -/
def init : State := ⟨none, [], fun _ => [], []⟩

/-- One entry of `Register` (sdata/list.go:59-62) or `RegisterGroup` (sdata/list.go:71-74). -/
def add (env : Env) (m : List (Bytes × Nat)) (id : Nat) : List (Bytes × Nat) :=
  if m.any (·.1 == env.key id) then m else m ++ [(env.key id, id)]

/-- The stack of one goroutine changes. -/
def setStack (s : State) (g : Nat) (st : List Frame) : State := { s with stack := fun x => if x = g then st else s.stack x }

/-- The innermost call of `g` returns: the lock is released, and the call is over or `Found` goes on. A panic runs the
deferred `Unlock` and goes on in the caller. -/
def finish (s : State) (g : Nat) (c : Call) (r : Ret) (below : List Frame) : State :=
  let s := { s with lock := none }
  match below with
  | .nested data rest k :: st => match r with
    | .parsed .panic => setStack s g (.found data rest (.done .panic) :: st)
    | r => setStack s g (.found data rest (k r) :: st)
  | st => { setStack s g st with log := s.log ++ [(g, c, r)] }

/-- Events: a goroutine that is not in the package calls a function of it; a goroutine takes the lock, for `Parse` with the
order in which the map will be iterated; a goroutine goes on. -/
inductive Event where
  | call (g : Nat) (c : Call)
  | acquire (g : Nat) (order : List Nat)
  | tau (g : Nat)

/-- One event; `none` when it cannot happen. -/
def step (env : Env) (s : State) : Event → Option State
  | .call g c => match s.stack g with
    | [] => some (setStack s g [.want c])
    | _ => none
  | .acquire g order => match s.stack g with
    | .want c :: st =>
      if s.lock.isSome then none else
      let s := { s with lock := some g }
      match c with
      | .parse data => if order.isPerm (s.sdids.map (·.2)) then some (setStack s g (.scan data order :: st)) else none
      | c => some (setStack s g (.body c :: st))
    | _ => none
  | .tau g => match s.stack g with
    | .body (.register id) :: st => some (finish { s with sdids := add env s.sdids id } g (.register id) (.registered id) st)
    | .body (.registerGroup ids) :: st =>
      some (finish { s with sdids := ids.foldl (add env) s.sdids } g (.registerGroup ids) .grouped st)
    -- sdata/list.go:45
    | .scan data [] :: st => match unknownFound data with
      | .hang => none
      | o => some (finish s g (.parse data) (.parsed o) st)
    | .scan data (id :: rest) :: st => some (setStack s g (.found data rest (env.found id data) :: st))
    -- sdata/list.go:40-42
    | .found data rest (.done o) :: st => match o with
      | .ret none => some (setStack s g (.scan data rest :: st))
      | .hang => none
      | o => some (finish s g (.parse data) (.parsed o) st)
    | .found data rest (.call c k) :: st => some (setStack s g (.want c :: .nested data rest k :: st))
    | _ => none

/-- A history. -/
def run (env : Env) : State → List Event → Option State
  | s, [] => some s
  | s, e :: r => (step env s e).bind fun s' => run env s' r

end Syslog5424.Registry
