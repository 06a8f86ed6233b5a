import Verif.Model.Meter
import Verif.Model.MapAccess
import Verif.Model.Calls
/-!
# Counter packs (scouterx/task/countertask/countertask.go, counter/collector.go, counter/gocounter/gocounter.go)

A monitored agent is the tracing state together with the meters and the last sample of the Go runtime.  Everything that
ends services adds to the service meter (tracemain.go:389, by way of `World.metered`); the two counter goroutines read the
meters and send a pack.  Each of their rounds is one step, like every call; the seconds at which the meters are read and
written inside a round are given separately, and so is the object's name in effect.
-/
namespace Scouter
namespace Counter
open Trace

/-- What the Go runtime reports: `time.Now().UnixNano()`, `runtime.NumGoroutine()`, `runtime.NumCgoCall()` and the fields used of
`runtime.MemStats`.  Library runtime; gocounter.go:31-43. -/
structure Sample where
  nanos : BitVec 64
  goroutines : BitVec 64
  cgoCalls : BitVec 64
  heapAlloc : BitVec 64
  pauseTotalNs : BitVec 64
  numGC : BitVec 32

/-- `GoCounter`, gocounter.go:11-24.  The rates are the bits of `float64` numbers. -/
structure GoCounter where
  timestamp : BitVec 64 := 0
  goroutineNum : BitVec 64 := 0
  cgoCallNum : BitVec 64 := 0
  heapAlloc : BitVec 64 := 0
  gcPerSec : BitVec 64 := 0
  gcPausePerSec : BitVec 64 := 0
  pauseTotalNs : BitVec 64 := 0
  numGC : BitVec 32 := 0

/-- The floating-point computations of the packs, as bit patterns: the calls per second (serviceMetering.go:73), the percentage of failed
calls of a number of calls that is not 0 (serviceMetering.go:79), the average of a number of values that is not 0 (valueMetering.go:58),
collections per second and milliseconds of pause per second (gocounter.go:45-46), and the conversion `float32(x)` of a `float64`
(perfcounterpack.go:59-62).  Left open here: Model/Floating has those of the processor. -/
structure Floats where
  tps : (count period : Int) → BitVec 32
  errorRate : (errors count : Int) → BitVec 32
  average : (sum count : Int) → BitVec 64
  gcCount : (collections nanos : Int) → BitVec 64
  gcPause : (pause nanos : Int) → BitVec 64
  narrow : BitVec 64 → BitVec 32

/-- The percentage of failed calls in a `ServiceCounter`, 0 without calls: serviceMetering.go:75-80. -/
def Floats.failed (f : Floats) (c : ServiceCounter) : BitVec 32 := if c.count ≠ 0 then f.errorRate c.errors c.count else 0

/-- The average in a `ValueMetric`, 0 without values: valueMetering.go:55-59. -/
def Floats.mean (f : Floats) (v : ValueMetric) : BitVec 64 := if v.count = 0 then 0 else f.average v.sum v.count

/-- `GetGoCounter`, gocounter.go:26-51.  The subtractions wrap around. -/
def getGoCounter (f : Floats) (prev : GoCounter) (s : Sample) : GoCounter :=
  let counter : GoCounter :=
    { timestamp := s.nanos, goroutineNum := s.goroutines, cgoCallNum := s.cgoCalls, heapAlloc := s.heapAlloc
      pauseTotalNs := s.pauseTotalNs, numGC := s.numGC }
  if prev.timestamp ≠ 0 then
    { counter with
      gcPausePerSec := f.gcPause (s.pauseTotalNs - prev.pauseTotalNs).toInt (s.nanos - prev.timestamp).toInt
      gcPerSec := f.gcCount (s.numGC - prev.numGC).toInt (s.nanos - prev.timestamp).toInt }
  else counter

/-- The tracing state with the meters and the previous sample: `serviceMetering` (serviceMetering.go:8-9), `activeCounter` and
`prevGoCounter` (countertask.go:14-15). -/
structure Monitor where
  world : World
  service : Meter ServiceBucket
  active : Meter ValueBucket
  prev : GoCounter := {}

/-- The seconds of the accesses to the meters during a round: the reading of the service meter, the ending of stuck services,
the recording of the active count and the reading of its average.  Library time; metering.go:8-10. -/
structure Seconds where
  read : Int
  stuck : Int
  count : Int
  average : Int

/-- `Add` of the service meter for each service metered between two states of the tracing packages, at a second
(tracemain.go:389; serviceMetering.go:49-59). -/
def meterAll (now : Int) (before after : World) (m : Meter ServiceBucket) : Meter ServiceBucket :=
  (after.metered.drop before.metered.length).foldl (fun m e => ServiceMeter.add now e.1 e.2 m) m

/-- `getAllCounterOnPack`, countertask.go:38-75.  The result is `none` when a panic was recovered: the pack is then nil, and
sending it (udpsender.go:87-96) ends the program. -/
def getAllCounterOnPack (f : Floats) (objName : Bytes) (s : Sample) (o : MapOrder (BitVec 64 × Nat)) (t : Seconds) (k : Monitor) :
    Option PerfCounterPack × Monitor :=
  let put := PerfCounterPack.put f.narrow
  let c := getGoCounter f k.prev s
  let k := { k with prev := c }
  let data := put [] (ascii "Goroutine") (.int c.goroutineNum)
  let data := put data (ascii "GoCgoCall") (.int64 c.cgoCallNum)
  let data := put data (ascii "GoGcCount") (.float64 c.gcPerSec)
  let data := put data (ascii "GoGcPause") (.float64 c.gcPausePerSec)
  let data := put data (ascii "GoHeapUsed") (.int64 c.heapAlloc)
  let (sc, service) := ServiceMeter.getAllCounter t.read 30 k.service
  let data := put data (ascii "GoTPS") (.float32 (f.tps sc.count sc.period))
  let data := put data (ascii "GoElapsedTime") (.int (BitVec.ofInt 64 sc.elapsed))
  let data := put data (ascii "GoErrorRate") (.float32 (f.failed sc))
  match getActiveCount o k.world with
  | (.ok a, w) =>
    let service := meterAll t.stuck k.world w service
    let active := ValueMeter.add t.count (a.1 + a.2.1 + a.2.2 : Nat) k.active
    let (vm, active) := ValueMeter.getAllCounter t.average 30 active
    let data := put data (ascii "GoActiveService") (.float64 (f.mean vm))
    let data := put data (ascii "ActiveSpeed")
      (.value (.list [.dec (BitVec.ofNat 64 a.1), .dec (BitVec.ofNat 64 a.2.1), .dec (BitVec.ofNat 64 a.2.2)]))
    (some { time := 0, objName := objName, timetype := 1, data := data },
      { k with world := w, service := service, active := active })
  | (.panic, w) =>
    (none, { k with world := w, service := meterAll t.stuck k.world w service })

/-- `getAll5MinCounterOnPack`, countertask.go:77-91. -/
def getAll5MinCounterOnPack (f : Floats) (objName : Bytes) (read average : Int) (k : Monitor) : PerfCounterPack × Monitor :=
  let put := PerfCounterPack.put f.narrow
  let (sc, service) := ServiceMeter.getAllCounter read 300 k.service
  let data := put [] (ascii "GoTPS") (.float32 (f.tps sc.count sc.period))
  let data := put data (ascii "GoElapsedTime") (.int (BitVec.ofInt 64 sc.elapsed))
  let data := put data (ascii "GoErrorRate") (.float32 (f.failed sc))
  let (vm, active) := ValueMeter.getAllCounter average 300 k.active
  let data := put data (ascii "GoActiveService") (.float64 (f.mean vm))
  ({ time := 0, objName := objName, timetype := 3, data := data }, { k with service := service, active := active })

/-- `SendServiceCounter`, collector.go:42-57: the pack it sends, with what it stores under the keys of the throughput and of the
error rate.  (Called from `counter.Start`, which nothing calls.) -/
def sendServiceCounter (f : Floats) (objName : Bytes) (now : Int) (k : Monitor) : PerfCounterPack × Monitor :=
  let put := PerfCounterPack.put f.narrow
  let (counter, service) := ServiceMeter.getAllCounter now 30 k.service
  let data := put [] (ascii "GoTPS") (.float32 (f.failed counter))
  let data := put data (ascii "GoElapsedTime") (.int (BitVec.ofInt 64 counter.elapsed))
  let data := put data (ascii "GoErrorRate") (.float32 (f.tps counter.count counter.period))
  ({ time := 0, objName := objName, timetype := 1, data := data }, { k with service := service })

/-- `SendGoCounter`, collector.go:24-40: the pack it sends; `prev` is `prevGoCounter` of collector.go:11, which is not the one of the
counter rounds (countertask.go:15).  (Called from `counter.Start`, which nothing calls, or by the user.) -/
def sendGoCounter (f : Floats) (objName : Bytes) (s : Sample) (prev : GoCounter) : PerfCounterPack × GoCounter :=
  let put := PerfCounterPack.put f.narrow
  let c := getGoCounter f prev s
  let data := put [] (ascii "Goroutine") (.int c.goroutineNum)
  let data := put data (ascii "GoCgoCall") (.int64 c.cgoCallNum)
  let data := put data (ascii "GoGcCount") (.float64 c.gcPerSec)
  let data := put data (ascii "GoGcPause") (.float64 c.gcPausePerSec)
  let data := put data (ascii "GoHeapUsed") (.int64 c.heapAlloc)
  ({ time := 0, objName := objName, timetype := 1, data := data }, c)

/-- The packs of a sequence of calls of `SendGoCounter`, each with the object's name and what the runtime reports then.
   collector.go:24-40. -/
def sendGoCounters (f : Floats) : GoCounter → List (Bytes × Sample) → List PerfCounterPack
  | _, [] => []
  | prev, (name, s) :: cs => (sendGoCounter f name s prev).1 :: sendGoCounters f (sendGoCounter f name s prev).2 cs

/-- Something that happens: a call (or something around it, see `Call`) during a second, or a round of one of the two counter
goroutines (countertask.go:17-36). -/
inductive Event where
  | call (now : Int) (c : Call)
  | realTime (objName : Bytes) (s : Sample) (o : MapOrder (BitVec 64 × Nat)) (t : Seconds)
  | fiveMin (objName : Bytes) (read average : Int)

/-- The pack is sent (netio.SendPackDirect, dataproxy.go:250-252). -/
def sent (p : PerfCounterPack) (k : Monitor) : Monitor :=
  { k with world := (sendDirect (.perfCounter p) k.world).2 }

/-- The state after an event (countertask.go:22-36 for the rounds; nothing happens after the end of the program). -/
def Monitor.step (f : Floats) (k : Monitor) : Event → Monitor
  | .call now c => { k with world := perform k.world c, service := meterAll now k.world (perform k.world c) k.service }
  | .realTime objName s o t =>
    match getAllCounterOnPack f objName s o t k with
    | (some p, k) => sent p k
    | (none, k) => k
  | .fiveMin objName read average =>
    sent (getAll5MinCounterOnPack f objName read average k).1 (getAll5MinCounterOnPack f objName read average k).2

/-- The state after a history.  Model only: agent.go:28-39 running. -/
def Monitor.life (f : Floats) (k : Monitor) (es : List Event) : Monitor := es.foldl (Monitor.step f) k

/-- At start (the meters are made at `now`): serviceMetering.go:29-46, countertask.go:14-15. -/
def Monitor.start (env : Oracle) (conf : TraceConf) (cap : Nat) (now : Int) : Monitor :=
  { world := Trace.start env conf cap, service := ServiceMeter.new now, active := ValueMeter.new now }

end Counter
end Scouter
