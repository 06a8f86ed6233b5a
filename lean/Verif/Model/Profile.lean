import Verif.Model.Step
/-!
# The profile collector (scouterx/netio/profilecollector.go) and SendProfile (scouterx/netio/dataproxy.go:214-231)

Steps are pointers in the code: here they live in a heap (`List Step`) and are referred to by index, so that `Push`
can number a step that is recorded only later by `Pop`.  The buffer `steps[0:pos]` is the list `kept` and `len(steps)`
is `cap`; the slots beyond `pos` are never read.  `checkDumpStep` (:67-85) does nothing.
-/
namespace Scouter

/-- `ProfileCollector`, profilecollector.go:10-17 (`doingDumpStepJob` is unused, `tctx` is the owner). -/
structure Collector where
  cap : Nat
  kept : List Nat := []
  currentLevel : BitVec 32 := 0
  parentLevel : BitVec 32 := 0
deriving DecidableEq, Repr

/-- What `Process` leaves to do: nothing, send the full buffer, or it panicked.  profilecollector.go:48-58. -/
inductive Processed where
  | done
  | full (steps : List Nat)
  | panicked
deriving DecidableEq, Repr

namespace Collector

/-- `NewProfileCollector`, profilecollector.go:19-24; `keep` is `ProfileStepMaxKeepInMemoryCount` (negative: `make`
panics). -/
def new (keep : Int) : Option Collector := if keep < 0 then none else some { cap := keep.toNat }

/-- `Push`, profilecollector.go:26-32: the collector and the numbered step. -/
def push (c : Collector) (ss : Step) : Collector × Step :=
  ({ c with parentLevel := c.currentLevel, currentLevel := c.currentLevel + 1 },
   { ss with ss := { ss.ss with index := c.currentLevel, parent := c.parentLevel } })

/-- The first part of `Pop`, profilecollector.go:36. -/
def popParent (c : Collector) (ss : Step) : Collector := { c with parentLevel := ss.ss.parent }

/-- The first part of `Add`, profilecollector.go:42-44. -/
def addNumber (c : Collector) (ss : Step) : Collector × Step :=
  ({ c with currentLevel := c.currentLevel + 1 },
   { ss with ss := { ss.ss with index := c.currentLevel, parent := c.parentLevel } })

/-- `Process`, profilecollector.go:48-58, up to the call of `SendProfile`.  The index `c.steps[c.pos]` panics when the
buffer has no free slot, `make` panics for a negative size (after the step was stored). -/
def process (keep : Int) (c : Collector) (ptr : Nat) : Collector × Processed :=
  if c.kept.length ≥ c.cap then (c, .panicked)
  else
    let c := { c with kept := c.kept ++ [ptr] }
    if c.kept.length ≥ c.cap then
      if keep < 0 then (c, .panicked)
      else ({ c with cap := keep.toNat, kept := [] }, .full c.kept)
    else (c, .done)

/-- `Close`, profilecollector.go:60-65: what is given to `SendProfile`, if it is called. -/
def close (c : Collector) (ok : Bool) : Option (List Nat) :=
  if 0 < c.kept.length ∧ ok = true then some c.kept else none

end Collector

/-- The loop of dataproxy.go:225-227, `left` rounds to go from round `i`; each round's slice. -/
def profileLoop {α : Type} (steps : List α) (bulkSize : Int) : Nat → Int → List (List α)
  | 0, _ => []
  | left + 1, i =>
    ((steps.drop (i * bulkSize).toNat).take bulkSize.toNat) :: profileLoop steps bulkSize left (i + 1)

/-- `SendProfile`, dataproxy.go:214-231: the slices given to `sendProfile0` in order; `none` when it panics (division
by a zero `ProfileStepMaxCount`).  The slice bounds are always within the buffer. -/
def profileSlices {α : Type} (steps : List α) (bulkSize : Int) : Option (List (List α)) :=
  if steps.length = 0 then some []
  else if bulkSize = 0 then none
  else
    let count := (steps.length : Int).tdiv bulkSize
    if count = 0 then some [steps]
    else
      let remainder := (steps.length : Int).tmod bulkSize
      let loop := profileLoop steps bulkSize count.toNat 0
      if remainder > 0 then
        some (loop ++ [(steps.drop (count * bulkSize).toNat).take remainder.toNat])
      else some loop

/-! ## A profile on its own: the collector, its step heap, what was recorded and what was sent -/

/-- `recorded` (ghost) logs the steps passed to `Process`; `packets` the slices passed to `sendProfile0`.
   profilecollector.go:10-24, dataproxy.go:214-248. -/
structure ProfState where
  heap : List Step := []
  col : Collector
  recorded : List Nat := []
  packets : List (List Nat) := []
  panicked : Bool := false
deriving Repr

/-- A call on the profile. `push`/`add` bring a new step, `pop` names a step by its position in the heap.
   profilecollector.go:26-65. -/
inductive ProfOp where
  | push (s : Step)
  | pop (ptr : Nat)
  | add (s : Step)
  | close (ok : Bool)
deriving Repr

namespace ProfState

/-- `SendProfile` of the named steps.  dataproxy.go:214-248. -/
def send (s : ProfState) (bulk : Int) (o : List Nat) : ProfState :=
  match profileSlices o bulk with
  | some ps => { s with packets := s.packets ++ ps }
  | none => { s with panicked := true }

/-- `Process`, profilecollector.go:48-58. -/
def process (s : ProfState) (keep bulk : Int) (ptr : Nat) : ProfState :=
  let s := { s with recorded := s.recorded ++ [ptr] }
  match s.col.process keep ptr with
  | (c, .done) => { s with col := c }
  | (c, .full o) => { s with col := c }.send bulk o
  | (c, .panicked) => { s with col := c, panicked := true }

/-- One call, with the configuration (`ProfileStepMaxKeepInMemoryCount`, `ProfileStepMaxCount`) at that moment.
   profilecollector.go:26-65. -/
def step (s : ProfState) (keep bulk : Int) : ProfOp → ProfState
  | .push st =>
    let (c, st) := s.col.push st
    { s with col := c, heap := s.heap ++ [st] }
  | .pop ptr =>
    match s.heap[ptr]? with
    | none => s
    | some st => { s with col := s.col.popParent st }.process keep bulk ptr
  | .add st =>
    let (c, st) := s.col.addNumber st
    { s with col := c, heap := s.heap ++ [st] }.process keep bulk s.heap.length
  | .close ok =>
    match s.col.close ok with
    | some o => s.send bulk o
    | none => s

/-- A sequence of calls, each with its configuration.
   Model only: histories of calls of profilecollector.go:26-65. -/
def run (s : ProfState) : List (Int × Int × ProfOp) → ProfState
  | [] => s
  | (keep, bulk, op) :: ops => (s.step keep bulk op).run ops

end ProfState
end Scouter
