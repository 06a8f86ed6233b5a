import Verif.Model.Counter
import Verif.Spec.Window
import Verif.Spec.Services
/-!
# Specification of the counter packs

What happened during a history, listed with the second it happened in, read off the states before and after each event.
-/
namespace Scouter.Spec
open Scouter.Counter Scouter.Trace

/-- The seconds at which meters are accessed during an event, in the order of the accesses. -/
def seconds : Counter.Event → List Int
  | .call now _ => [now]
  | .realTime _ _ _ t => [t.read, t.stuck, t.count, t.average]
  | .fiveMin _ read average => [read, average]

/-- The second in which the services ended by an event end. -/
def endSecond : Counter.Event → Int
  | .call now _ => now
  | .realTime _ _ _ t => t.stuck
  | .fiveMin _ read _ => read

/-- The services metered during a history: second, elapsed time and whether the service failed. -/
def endings (f : Floats) : Monitor → List Counter.Event → List (Int × Int × Bool)
  | _, [] => []
  | k, e :: es =>
    ((k.step f e).world.metered.drop k.world.metered.length).map (fun x => (endSecond e, x)) ++ endings f (k.step f e) es

/-- How many services ended during each event of a history, with the second. -/
def endedCounts (f : Floats) : Monitor → List Counter.Event → List (Int × Int)
  | _, [] => []
  | k, e :: es =>
    (endSecond e, ((endedIds (k.step f e).world).length - (endedIds k.world).length : Int)) :: endedCounts f (k.step f e) es

/-- The numbers of services looked at by the rounds of the real-time counter, with the second: those registered, at most 2000. -/
def activeCounts (f : Floats) : Monitor → List Counter.Event → List (Int × Int)
  | _, [] => []
  | k, e :: es =>
    (match e with
      | .realTime _ _ o t => [(t.count, (((k.world.registry.getValues o).take 2000).length : Int))]
      | _ => []) ++ activeCounts f (k.step f e) es

/-- The numbers of services running, at most 2000, when the rounds of the real-time counter looked, with the second. -/
def runningCounts (f : Floats) : Monitor → List Counter.Event → List (Int × Int)
  | _, [] => []
  | k, e :: es =>
    (match e with
      | .realTime _ _ _ t => [(t.count, (min 2000 (running k.world).length : Int))]
      | _ => []) ++ runningCounts f (k.step f e) es

/-- The last sample of the Go runtime taken during a history. -/
def lastSample (es : List Counter.Event) : Option Sample :=
  (es.filterMap fun e => match e with | .realTime _ s _ _ => some s | _ => none).getLast?

/-- What the figures of garbage collection mean: nothing is reported without a previous sample; otherwise, if `dt` nanoseconds have
passed since, in which collections paused the program for `pause` nanoseconds and ran `gcs` times (the runtime's count of
collections wraps around at 2^32), then they are collections per second and milliseconds of pause per second, as the floating-point
numbers computed from them. -/
def GcFigures (f : Floats) (before : Option Sample) (s : Sample) (perSecond pausePerSecond : BitVec 64) : Prop :=
  match before with
  | none => perSecond = 0 ∧ pausePerSecond = 0
  | some b => ∀ dt pause gcs : Nat, b.nanos ≠ 0 → s.nanos.toNat = b.nanos.toNat + dt → 0 < dt → dt < 2 ^ 63 →
      s.pauseTotalNs.toNat = b.pauseTotalNs.toNat + pause → pause < 2 ^ 63 →
      s.numGC = b.numGC + BitVec.ofNat 32 gcs → gcs < 2 ^ 31 →
      perSecond = f.gcCount gcs dt ∧ pausePerSecond = f.gcPause pause dt

/-- The floating-point average of numbers, 0 when there are none. -/
def average (f : Floats) (l : List Int) : BitVec 64 := if l = [] then 0 else f.average l.sum l.length

/-- The floating-point percentage of failed services, of services with their elapsed times and error flags; 0 when there are none. -/
def percentage (f : Floats) (l : List (Int × Bool)) : BitVec 32 := if l = [] then 0 else f.errorRate (l.countP (·.2)) l.length

/-- Every call of a history is well formed when it is made (no nil arguments, positive profile limits). -/
def AllProper (f : Floats) : Monitor → List Counter.Event → Prop
  | _, [] => True
  | k, e :: es => (match e with | .call _ c => WellFormed k.world c | _ => True) ∧ AllProper f (k.step f e) es

end Scouter.Spec
