import Verif.Model.SData
/-!
# Model of the memory of structured data lists (`sdata/list.go:79-82`, `message.go:138-140`)

A `List` is a Go slice; `Add` is the built-in `append`, which writes in the array of its first argument when there is
room left, and otherwise copies to a new, larger array. How much larger is the business of the Go runtime: here any
function `spare` of the old capacity and the needed one. All the slices here start at the beginning of their array.
-/
namespace Syslog5424.Alias

/-- A slice: its array (an index in the heap), and its length. -/
structure Hdr where
  arr : Nat
  len : Nat
deriving DecidableEq, Repr

/-- The arrays; slots that were never written hold nil. -/
abbrev Heap := List (List (Option SD))

/-- `append(h, data...)` (sdata/list.go:81). -/
def goAppend (spare : Nat → Nat → Nat) (heap : Heap) (h : Hdr) (data : List SD) : Heap × Hdr :=
  let a := heap.getD h.arr []
  let n := h.len + data.length
  if n ≤ a.length then
    (heap.set h.arr (a.take h.len ++ data.map some ++ a.drop n), ⟨h.arr, n⟩)
  else
    (heap ++ [a.take h.len ++ data.map some ++ List.replicate (spare a.length n) none], ⟨heap.length, n⟩)

/-- The heap and the structured data of the messages made so far. -/
structure State where
  heap : Heap
  msgs : List Hdr

/-- `EmptyMessage()` with `sdata.EmptyList()`: an empty slice without capacity (message.go:47-49, sdata/list.go:22). The
lists of the messages of `CreateMessage` and `CreateWholeMessage` are copies of this slice. -/
def init : State := ⟨[[]], [⟨0, 0⟩]⟩

/-- A new message is derived from message number `src` by `StructuredData(data...)` (message.go:138-140); the other
setters copy the slice, as `StructuredData()` without arguments does. -/
structure Op where
  src : Nat
  data : List SD

/-- Nothing happens if there is no such message. -/
def step (spare : Nat → Nat → Nat) (s : State) (o : Op) : State :=
  match s.msgs[o.src]? with
  | none => s
  | some h =>
    let r := goAppend spare s.heap h o.data
    ⟨r.1, s.msgs ++ [r.2]⟩

/-- A program. -/
def run (spare : Nat → Nat → Nat) (ops : List Op) : State := ops.foldl (step spare) init

/-- The structured data of message `k`, as they are in memory. -/
def State.content (s : State) (k : Nat) : Option (List (Option SD)) :=
  (s.msgs[k]?).map fun h => (s.heap.getD h.arr []).take h.len

end Syslog5424.Alias
