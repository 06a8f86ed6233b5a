import Verif.Model.Meter
/-!
# Goroutines recording and averaging values at the same time (scouterx/counter/metering.go, valueMetering.go)

`Add` holds the lock of the value meter for the whole call, and `getPosition` (used by `Add` and by `GetAllCounter`) the lock of the ring;
`GetAllCounter` reads the buckets without a lock.  `Add` counts first and adds the value afterwards; the handler of `GetAllCounter` reads the
value first and the count afterwards.  Every read and write of a field of a bucket is a step of its own (`b.count++` is a read and a write), and
between two steps other goroutines may run and the clock may go on; so it is with clearing a bucket, field by field.  Simplifications: reads and
writes are seen in order, the count does not overflow, the values are whole numbers that are not negative (countertask.go:61-62 adds a sum of counts) with exact
sums.
-/
namespace Scouter
namespace ConcurrentValue

/-- The fields of a bucket.  valueMetering.go:17-20. -/
inductive Field where
  | count | value
deriving DecidableEq, Repr

/-- Reading a field.  valueMetering.go:41-42, :52-53. -/
def Field.get (b : ValueBucket) : Field → Int
  | .count => b.count
  | .value => b.value

/-- Writing a field.  valueMetering.go:41-42. -/
def Field.set (b : ValueBucket) (v : Int) : Field → ValueBucket
  | .count => { b with count := v }
  | .value => { b with value := v }

/-- A recorded value: the second in which `Add` looked at the clock, and the value.  Ghost: the argument of valueMetering.go:37. -/
abbrev Rec := Int × Nat

/-- A finished `GetAllCounter`: the period asked for, the second in which it looked at the clock, the sums it found.  Ghosts: `begun` are the
calls of `Add` that had returned when it began, `ended` those that had looked at the clock when it ended.  valueMetering.go:45-65. -/
structure Reading where
  period : Int
  second : Int
  begun : List Rec
  ended : List Rec
  count : Int
  sum : Int
deriving DecidableEq, Repr

/-- What the reading answers.  valueMetering.go:55-64. -/
def Reading.answer (r : Reading) : ValueMetric :=
  { sum := r.sum, avg := if r.count = 0 then 0 else (r.sum : Rat) / r.count, count := r.count }

/-- The calls a goroutine makes.  valueMetering.go:37, :45. -/
inductive Call where
  | add (value : Nat)
  | get (period : Int)
deriving DecidableEq, Repr

/-- For whom `getPosition` is run.  metering.go:42-45, :82-84. -/
inductive Job where
  | add (value : Nat)
  | get (period : Int) (begun : List Rec)
deriving DecidableEq, Repr

/-- An `Add` that has its bucket: the recorded value and the bucket's place.  valueMetering.go:40. -/
structure Adding where
  record : Rec
  pos : Nat
deriving DecidableEq, Repr

/-- A `GetAllCounter` in its loop: `left` buckets to visit, the next at `pos`, and the sums so far.  metering.go:82-91; valueMetering.go:45-54. -/
structure Scan where
  period : Int
  second : Int
  begun : List Rec
  left : Nat
  pos : Nat
  count : Int
  sum : Int
deriving DecidableEq, Repr

/-- The sum of a field.  valueMetering.go:46-47. -/
def Scan.get (c : Scan) : Field → Int
  | .count => c.count
  | .value => c.sum

/-- `sum += vb.value` and `count += vb.count`.  valueMetering.go:52-53. -/
def Scan.plus (c : Scan) (v : Int) : Field → Scan
  | .count => { c with count := c.count + v }
  | .value => { c with sum := c.sum + v }

/-- Where a goroutine is.  metering.go:47-64, :82-91; valueMetering.go:37-54. -/
inductive Pc where
  /-- between calls -/
  | idle
  /-- before `m.Lock()`, metering.go:48 -/
  | position (job : Job)
  /-- before `getTimestamp()`, metering.go:50 -/
  | clock (job : Job)
  /-- in the loop of metering.go:52, with `curTime` and `i`; before the test, or before the clearing of a field of the bucket the ring has moved to,
  valueMetering.go:29-31 -/
  | clearing (job : Job) (cur : Int) (i : Nat) (field : Option Field)
  /-- before reading a field of the bucket to add to it, valueMetering.go:41-42 -/
  | load (a : Adding) (f : Field)
  /-- before writing it, with what was read -/
  | store (a : Adding) (f : Field) (v : Int)
  /-- before `g.Unlock()`, valueMetering.go:39 -/
  | unlock (a : Adding)
  /-- before reading a field of a bucket in the handler, valueMetering.go:52-53 -/
  | scan (c : Scan) (f : Field)
deriving DecidableEq, Repr

/-- A goroutine: where it is, the calls it will make, the readings it has made.  Model only: users of valueMetering.go:37-65
(countertask.go:62-63, :87). -/
structure Gor where
  pc : Pc := .idle
  todo : List Call := []
  readings : List Reading := []
deriving DecidableEq, Repr

/-- What is shared: the clock, the ring, and who holds the lock of the value meter and that of the ring.  Ghosts: the calls of `Add` that have
looked at the clock (`entered`), and those that have returned (`returned`).  metering.go:12-21; valueMetering.go:7-10. -/
structure Shared where
  now : Int
  meter : Meter ValueBucket
  gLock : Option Nat := none
  mLock : Option Nat := none
  entered : List Rec := []
  returned : List Rec := []

/-- The next place of the ring.  metering.go:53-57. -/
def nextPos (pos : Nat) : Nat := if pos + 1 > bucketSize - 1 then 0 else pos + 1

/-- What a call adds to a field.  valueMetering.go:41-42. -/
def amount (r : Rec) : Field → Int
  | .count => 1
  | .value => r.2

/-- After `getPosition` has found the place: the ring is unlocked; `Add` goes on with its bucket, `GetAllCounter` with its loop.
   metering.go:62-64, :82-86; valueMetering.go:40, :49. -/
def located (s : Shared) (g : Gor) : Job → Shared × Gor
  | .add v =>
    let r : Rec := (s.meter.time, v)
    ({ s with mLock := none, entered := s.entered ++ [r] }, { g with pc := .load ⟨r, s.meter.pos⟩ .count })
  | .get period begun =>
    let left := (Meter.check period).toNat
    if left = 0 then
      ({ s with mLock := none },
        { g with pc := .idle, readings := g.readings ++ [⟨period, s.meter.time, begun, s.entered, 0, 0⟩] })
    else ({ s with mLock := none }, { g with pc := .scan ⟨period, s.meter.time, begun, left, s.meter.pos, 0, 0⟩ .value })

/-- The bucket at a place.  metering.go:44, :87. -/
def Shared.bucket (s : Shared) (pos : Nat) : ValueBucket := (s.meter.table[pos]?).getD {}

/-- The next bucket of the loop, or the end of the call.  metering.go:86-91. -/
def advance (s : Shared) (g : Gor) (c : Scan) : Gor :=
  if c.left = 1 then
    { g with pc := .idle, readings := g.readings ++ [⟨c.period, c.second, c.begun, s.entered, c.count, c.sum⟩] }
  else { g with pc := .scan { c with left := c.left - 1, pos := Meter.stepBack c.pos } .value }

/-- One step of goroutine `i`; `none` if it has to wait for a lock or has nothing to do.  metering.go:47-91; valueMetering.go:37-54. -/
def Gor.step (s : Shared) (i : Nat) (g : Gor) : Option (Shared × Gor) :=
  match g.pc with
  | .idle =>
    match g.todo with
    | [] => none
    | .add v :: todo =>
      if s.gLock = none then some ({ s with gLock := some i }, { g with todo := todo, pc := .position (.add v) }) else none
    | .get period :: todo => some (s, { g with todo := todo, pc := .position (.get period s.returned) })
  | .position job => if s.mLock = none then some ({ s with mLock := some i }, { g with pc := .clock job }) else none
  | .clock job =>
    if s.now = s.meter.time then some (located s g job) else some (s, { g with pc := .clearing job s.now 0 none })
  | .clearing job cur k (some f) =>
    some ({ s with meter := { s.meter with table := s.meter.table.modify s.meter.pos fun b => f.set b 0 } },
      { g with pc := match f with
          | .value => .clearing job cur k (some .count)
          | .count => .clearing job cur (k + 1) none })
  | .clearing job cur k none =>
    if (k : Int) < cur - s.meter.time ∧ k < bucketSize then
      some ({ s with meter := { s.meter with pos := nextPos s.meter.pos } }, { g with pc := .clearing job cur k (some .value) })
    else some (located { s with meter := { s.meter with time := cur, pos := (cur % bucketSize).toNat } } g job)
  | .load a f => some (s, { g with pc := .store a f (f.get (s.bucket a.pos)) })
  | .store a f v =>
    some ({ s with meter := { s.meter with table := s.meter.table.modify a.pos fun b => f.set b (v + amount a.record f) } },
      { g with pc := match f with
          | .count => .load a .value
          | .value => .unlock a })
  | .unlock a => some ({ s with gLock := none, returned := s.returned ++ [a.record] }, { g with pc := .idle })
  | .scan c f =>
    let c := c.plus (f.get (s.bucket c.pos)) f
    some (s, match f with
      | .value => { g with pc := .scan c .count }
      | .count => advance s g c)

/-- All there is.  Model only: the value meter and the goroutines using it, countertask.go:15-19. -/
structure State where
  shared : Shared
  gors : List Gor

/-- What happens next: a second passes, or goroutine `i` makes a step.  Model only: the clock and the Go scheduler, metering.go:8-10. -/
inductive Event where
  | tick
  | go (i : Nat)
deriving DecidableEq, Repr

/-- One event; a goroutine that cannot move does not.  metering.go:8-10, :47-91; valueMetering.go:37-54. -/
def State.fire (s : State) : Event → State
  | .tick => { s with shared := { s.shared with now := s.shared.now + 1 } }
  | .go i =>
    match s.gors[i]? with
    | none => s
    | some g =>
      match g.step s.shared i with
      | none => s
      | some (sh, g') => ⟨sh, s.gors.set i g'⟩

/-- A history.  Model only: the scheduler between the steps of valueMetering.go:37-54. -/
def State.run (s : State) (es : List Event) : State := es.foldl State.fire s

/-- The value meter made at second `t0`, and goroutines with the calls they will make.  valueMetering.go:22-35. -/
def State.start (t0 : Int) (todos : List (List Call)) : State :=
  ⟨{ now := t0, meter := ValueMeter.new t0 }, todos.map fun t => { todo := t }⟩

end ConcurrentValue
end Scouter
