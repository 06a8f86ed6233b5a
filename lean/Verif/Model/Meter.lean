/-!
# Metering (scouterx/counter/metering.go, serviceMetering.go, valueMetering.go)

Time is the clock in whole seconds since 1970, not negative (`%` of a negative number would be a negative index in Go).
Each call is one atomic step: `Add` holds the locks, `GetAllCounter` reads the buckets without one.
`int` does not overflow; the counters hold the exact quotients (the quotient by 0 being 0) next to the whole numbers they are
quotients of.  Model/Counter and Model/Floating say which `float32` and `float64` the program makes of those whole numbers.
A value handed to `ValueMetering.Add` is a whole number (countertask.go:61-62 adds a sum of counts), for which float sums
below 2^53 are exact.
-/
namespace Scouter

/-- `bucketSize`, metering.go:28. -/
def bucketSize : Nat := 301

/-- `Metering`, metering.go:12-21; `table` holds the buckets, whose pointers never change. -/
structure Meter (B : Type) where
  time : Int
  pos : Nat
  table : List B

namespace Meter
variable {B : Type}

/-- `NewMetering`, metering.go:27-40. -/
def new (empty : B) (now : Int) : Meter B :=
  { time := now, pos := (now % bucketSize).toNat, table := List.replicate bucketSize empty }

/-- The body of the loop of metering.go:52-59: one position on, that bucket cleared. -/
def clearNext (empty : B) (m : Meter B) : Meter B :=
  let pos := if m.pos + 1 > bucketSize - 1 then 0 else m.pos + 1
  { m with pos := pos, table := m.table.set pos empty }

/-- The loop of metering.go:52-59, run `n` times. -/
def clearLoop (empty : B) : Nat → Meter B → Meter B
  | 0, m => m
  | n + 1, m => clearLoop empty n (m.clearNext empty)

/-- `getPosition`, metering.go:47-64, as the change it makes; the loop runs `curTime - m.time` times, at most
`bucketSize` times, and not at all when that is negative. -/
def position (empty : B) (cur : Int) (m : Meter B) : Meter B :=
  if cur ≠ m.time then
    { clearLoop empty (min (cur - m.time).toNat bucketSize) m with time := cur, pos := (cur % bucketSize).toNat }
  else m

/-- `GetCurrentBucket`, metering.go:42-45, and the caller's change `f` to the bucket. -/
def update (empty : B) (cur : Int) (f : B → B) (m : Meter B) : Meter B :=
  let m := m.position empty cur
  { m with table := m.table.modify m.pos f }

/-- `check`, metering.go:66-71. -/
def check (period : Int) : Int := if period ≥ bucketSize then bucketSize - 1 else period

/-- `stepBack`, metering.go:73-80. -/
def stepBack (pos : Nat) : Nat := if pos = 0 then bucketSize - 1 else pos - 1

/-- The loop of metering.go:86-89: the buckets handed to the handler. -/
def visit (m : Meter B) : Nat → Nat → List B
  | 0, _ => []
  | n + 1, pos => m.table[pos]?.toList ++ visit m n (stepBack pos)

/-- `SearchOnHandler`, metering.go:82-91: the period used, the buckets visited, the meter afterwards.  A period of 0 or
less visits none. -/
def searchOnHandler (empty : B) (cur period : Int) (m : Meter B) : Int × List B × Meter B :=
  let period := check period
  let m := m.position empty cur
  (period, visit m period.toNat m.pos, m)

end Meter

/-- `ServiceBucket`, serviceMetering.go:23-27. -/
structure ServiceBucket where
  count : Int := 0
  elapsed : Int := 0
  error : Int := 0
deriving DecidableEq, Repr

/-- `ServiceCounter`, serviceMetering.go:17-21: the exact figures, and the whole numbers they are computed from (the local variables
`countSum`, `errorSum` and `period` of serviceMetering.go:62-66). -/
structure ServiceCounter where
  tps : Rat
  elapsed : Int
  errorRate : Rat
  count : Int
  errors : Int
  period : Int
deriving DecidableEq, Repr

namespace ServiceMeter

/-- `GetServiceMeter`, serviceMetering.go:29-46. -/
def new (now : Int) : Meter ServiceBucket := Meter.new {} now

/-- The change made to the bucket by `Add`, serviceMetering.go:52-58. -/
def bump (elapsed : Int) (err : Bool) (b : ServiceBucket) : ServiceBucket :=
  let elapsed := if elapsed < 0 then 0 else elapsed
  { count := b.count + 1, elapsed := b.elapsed + elapsed, error := if err then b.error + 1 else b.error }

/-- `Add`, serviceMetering.go:49-59. -/
def add (now : Int) (elapsed : Int) (err : Bool) (m : Meter ServiceBucket) : Meter ServiceBucket :=
  m.update {} now (bump elapsed err)

/-- `GetAllCounter`, serviceMetering.go:61-87. -/
def getAllCounter (now period : Int) (m : Meter ServiceBucket) : ServiceCounter × Meter ServiceBucket :=
  let (period, bs, m) := m.searchOnHandler {} now period
  let countSum : Int := (bs.map (·.count)).sum
  let elapsedSum : Int := (bs.map (·.elapsed)).sum
  let errorSum : Int := (bs.map (·.error)).sum
  ({ tps := (countSum : Rat) / period
     elapsed := if countSum ≠ 0 then elapsedSum.tdiv countSum else 0
     errorRate := if countSum ≠ 0 then (errorSum : Rat) / countSum * 100 else 0
     count := countSum, errors := errorSum, period := period }, m)

end ServiceMeter

/-- `ValueBucket`, valueMetering.go:17-20. -/
structure ValueBucket where
  value : Int := 0
  count : Int := 0
deriving DecidableEq, Repr

/-- `ValueMetric`, valueMetering.go:12-15: the sum, a whole number here, the exact average, and the local variable `count` of
valueMetering.go:47. -/
structure ValueMetric where
  sum : Int
  avg : Rat
  count : Int
deriving DecidableEq, Repr

namespace ValueMeter

/-- `NewValueMeter`, valueMetering.go:22-35. -/
def new (now : Int) : Meter ValueBucket := Meter.new {} now

/-- `Add`, valueMetering.go:37-43. -/
def add (now : Int) (value : Int) (m : Meter ValueBucket) : Meter ValueBucket :=
  m.update {} now fun b => { count := b.count + 1, value := b.value + value }

/-- `GetAllCounter`, valueMetering.go:45-65. -/
def getAllCounter (now period : Int) (m : Meter ValueBucket) : ValueMetric × Meter ValueBucket :=
  let (_, bs, m) := m.searchOnHandler {} now period
  let sum : Int := (bs.map (·.value)).sum
  let count : Int := (bs.map (·.count)).sum
  ({ sum := sum, avg := if count = 0 then 0 else (sum : Rat) / count, count := count }, m)

end ValueMeter
end Scouter
