import Verif.Model.Profile
/-!
# Several goroutines recording on the same profile (scouterx/netio/profilecollector.go)

The collector has no lock.  Here every goroutine runs its calls of `Push`, `Pop`, `Add` and `Close` in steps of at most one
access to a shared field, and other goroutines may run between the steps.  Simplifications: reads and writes of a field are
single events and are seen in order (Go promises less for racing programs: an interface value is two words), `SendProfile`
reads the whole buffer in one step, and the two settings (`ProfileStepMaxKeepInMemoryCount`, `ProfileStepMaxCount`) do not change.
-/
namespace Scouter
namespace Recorders

/-- What goroutines share: the arrays ever made for `c.steps` (an empty slot is `none`), which of them is `c.steps`, `c.pos`, the
two levels, and the step objects.  `recorded` (ghost) lists the steps given to `Process`, `packets` what the packs sent hold
(empty slots are skipped by `StepsToBytes`, step.go:81-92), `counted` is what is added to `ProfileCount` (dataproxy.go:244), `panics`
counts the calls that panicked (each is caught by the handler of the API function that made it).
   profilecollector.go:10-24. -/
structure Shared where
  bufs : List (List (Option Nat))
  cur : Nat := 0
  pos : Nat := 0
  currentLevel : BitVec 32 := 0
  parentLevel : BitVec 32 := 0
  heap : List Step := []
  recorded : List Nat := []
  packets : List (List Nat) := []
  counted : Nat := 0
  panics : Nat := 0
deriving DecidableEq, Repr

/-- A goroutine's own variables: the step it was given, and the last level, array and position it has read.
   Model only: the temporaries of profilecollector.go:26-65. -/
structure Regs where
  me : Nat := 0
  level : BitVec 32 := 0
  buf : Nat := 0
  pos : Nat := 0
deriving DecidableEq, Repr

/-- The steps of which the four functions are made.  profilecollector.go:26-65. -/
inductive Instr where
  /-- `ss.SetIndex(c.currentLevel)`, profilecollector.go:28, 42. -/
  | setIndex
  /-- `ss.SetParent(c.parentLevel)`, profilecollector.go:29, 43. -/
  | setParent
  /-- the read of `c.currentLevel`, profilecollector.go:30, 31, 44. -/
  | readLevel
  /-- the write of `c.parentLevel = c.currentLevel`, profilecollector.go:30. -/
  | writeParent
  /-- the write of `c.currentLevel++`, profilecollector.go:31, 44. -/
  | bumpLevel
  /-- `c.parentLevel = ss.GetParent()`, profilecollector.go:36. -/
  | restoreParent
  /-- a read of `c.steps`, profilecollector.go:50, 53, 62. -/
  | readSteps
  /-- a read of `c.pos`, profilecollector.go:50-52, 61-62. -/
  | readPos
  /-- `c.steps[c.pos] = ss`, profilecollector.go:50. -/
  | store
  /-- the write of `c.pos++`, profilecollector.go:51. -/
  | bumpPos
  /-- the test `c.pos >= len(c.steps)`, profilecollector.go:52. -/
  | testFull
  /-- `c.steps = make(...)`, profilecollector.go:54. -/
  | newSteps
  /-- `c.pos = 0`, profilecollector.go:55. -/
  | zeroPos
  /-- `SendProfile(o, c.tctx)`, profilecollector.go:56. -/
  | sendAll
  /-- the test `c.pos > 0 && ok`, profilecollector.go:61. -/
  | testAny (ok : Bool)
  /-- `SendProfile(c.steps[0 : c.pos], c.tctx)`, profilecollector.go:62. -/
  | sendKept
deriving DecidableEq, Repr

/-- `Process` after its store, profilecollector.go:51-58. -/
def afterStore : List Instr := [.readPos, .bumpPos, .readPos, .testFull, .readSteps, .newSteps, .zeroPos, .sendAll]

/-- `Process`, profilecollector.go:48-58. -/
def processCode : List Instr := [.readSteps, .readPos, .store] ++ afterStore

/-- `Push`, profilecollector.go:26-32. -/
def pushCode : List Instr := [.setIndex, .setParent, .readLevel, .writeParent, .readLevel, .bumpLevel]

/-- `Pop`, profilecollector.go:34-38. -/
def popCode : List Instr := .restoreParent :: processCode

/-- `Add`, profilecollector.go:40-46. -/
def addCode : List Instr := [.setIndex, .setParent, .readLevel, .bumpLevel] ++ processCode

/-- `Close`, profilecollector.go:60-65. -/
def closeCode (ok : Bool) : List Instr := [.readPos, .testAny ok, .readSteps, .readPos, .sendKept]

/-- How a step ends: the function goes on, returns, or panics.  Model only: control flow of profilecollector.go:26-65. -/
inductive Next where
  | goOn | finished | panicked
deriving DecidableEq, Repr

/-- `SendProfile` of the slots `o`, dataproxy.go:214-248: `none` when it panics (a bulk size of 0). -/
def sendSlots (s : Shared) (bulk : Int) (o : List (Option Nat)) : Option Shared :=
  (profileSlices o bulk).map fun ps =>
    { s with packets := s.packets ++ ps.map (·.filterMap id), counted := s.counted + o.length }

/-- One step.  profilecollector.go:26-65. -/
def exec (keep bulk : Int) (s : Shared) (r : Regs) : Instr → Shared × Regs × Next
  | .setIndex =>
    ({ s with heap := s.heap.modify r.me fun st => { st with ss := { st.ss with index := s.currentLevel } } }, r, .goOn)
  | .setParent =>
    ({ s with heap := s.heap.modify r.me fun st => { st with ss := { st.ss with parent := s.parentLevel } } }, r, .goOn)
  | .readLevel => (s, { r with level := s.currentLevel }, .goOn)
  | .writeParent => ({ s with parentLevel := r.level }, r, .goOn)
  | .bumpLevel => ({ s with currentLevel := r.level + 1 }, r, .goOn)
  | .restoreParent => ({ s with parentLevel := (s.heap[r.me]?.map (·.ss.parent)).getD 0 }, r, .goOn)
  | .readSteps => (s, { r with buf := s.cur }, .goOn)
  | .readPos => (s, { r with pos := s.pos }, .goOn)
  | .store =>
    let s := { s with recorded := s.recorded ++ [r.me] }
    if r.pos < ((s.bufs[r.buf]?).getD []).length then
      ({ s with bufs := s.bufs.modify r.buf (·.set r.pos (some r.me)) }, r, .goOn)
    else (s, r, .panicked)
  | .bumpPos => ({ s with pos := r.pos + 1 }, r, .goOn)
  | .testFull => (s, r, if r.pos ≥ ((s.bufs[s.cur]?).getD []).length then .goOn else .finished)
  | .newSteps =>
    if keep < 0 then (s, r, .panicked)
    else ({ s with bufs := s.bufs ++ [List.replicate keep.toNat none], cur := s.bufs.length }, r, .goOn)
  | .zeroPos => ({ s with pos := 0 }, r, .goOn)
  | .sendAll =>
    match sendSlots s bulk ((s.bufs[r.buf]?).getD []) with
    | some s => (s, r, .finished)
    | none => (s, r, .panicked)
  | .testAny ok => (s, r, if 0 < r.pos ∧ ok = true then .goOn else .finished)
  | .sendKept =>
    if r.pos ≤ ((s.bufs[r.buf]?).getD []).length then
      match sendSlots s bulk (((s.bufs[r.buf]?).getD []).take r.pos) with
      | some s => (s, r, .finished)
      | none => (s, r, .panicked)
    else (s, r, .panicked)

/-- A goroutine: what is left of the call it is in, its variables, and the calls it will make afterwards.
   Model only: goroutines inside profilecollector.go:26-65. -/
structure Gor where
  code : List Instr := []
  regs : Regs := {}
  todo : List ProfOp := []
deriving Repr

/-- All there is.  Model only: a collector of profilecollector.go:10-17 and the goroutines using it. -/
structure State where
  shared : Shared
  gors : List Gor
deriving Repr

/-- The beginning of a call: the step of `Push` and `Add` is made by the caller; a step that does not exist cannot be given to
`Pop`.  profilecollector.go:26, 34, 40, 60. -/
def beginCall (s : Shared) (g : Gor) : ProfOp → Shared × Gor
  | .push st => ({ s with heap := s.heap ++ [st] }, { g with code := pushCode, regs := { g.regs with me := s.heap.length } })
  | .add st => ({ s with heap := s.heap ++ [st] }, { g with code := addCode, regs := { g.regs with me := s.heap.length } })
  | .pop ptr => if ptr < s.heap.length then (s, { g with code := popCode, regs := { g.regs with me := ptr } }) else (s, g)
  | .close ok => (s, { g with code := closeCode ok })

/-- One step of a goroutine: begin the next call, or go on in this one.  profilecollector.go:26-65. -/
def Gor.step (keep bulk : Int) (s : Shared) (g : Gor) : Shared × Gor :=
  match g.code with
  | [] =>
    match g.todo with
    | [] => (s, g)
    | op :: todo => beginCall s { g with todo := todo } op
  | i :: code =>
    match exec keep bulk s g.regs i with
    | (s, r, .goOn) => (s, { g with code := code, regs := r })
    | (s, r, .finished) => (s, { g with code := [], regs := r })
    | (s, r, .panicked) => ({ s with panics := s.panics + 1 }, { g with code := [], regs := r })

/-- One step of goroutine `i`.  profilecollector.go:26-65. -/
def State.fire (keep bulk : Int) (s : State) (i : Nat) : State :=
  match s.gors[i]? with
  | none => s
  | some g => ⟨(g.step keep bulk s.shared).1, s.gors.set i (g.step keep bulk s.shared).2⟩

/-- A schedule: the goroutines in the order in which they make steps.
   Model only: the Go scheduler between the steps of profilecollector.go:26-65. -/
def State.run (keep bulk : Int) (s : State) (is : List Nat) : State := is.foldl (State.fire keep bulk) s

/-- A new collector and goroutines with the calls they will make.  profilecollector.go:19-24 (`keep` is not negative). -/
def State.start (keep : Int) (todos : List (List ProfOp)) : State :=
  ⟨{ bufs := [List.replicate keep.toNat none] }, todos.map fun t => { todo := t }⟩

/-- Every call has returned.  Model only. profilecollector.go:26-65. -/
def State.quiet (s : State) : Prop := ∀ g ∈ s.gors, g.code = [] ∧ g.todo = []

end Recorders
end Scouter
