import Verif.Model.Iterating
import Verif.Model.Calls
/-!
# Counting the active services while services start and end (scouterx/strace/tctxmanager/tctxmanager.go:74-106)

`GetActiveCount` first lists the table of running services with `GetValues` (`Verif.Model.Iterating`: other goroutines add and remove services
between any two entries) and then looks at the listed services one after the other.  The settings may be refreshed meanwhile: what its reads of
them give is an arbitrary input for every service looked at.  Simplifications: of a trace context only the time of its start is modelled; what
ending a stuck service does is `Trace.endStuck` (and, when its owner ends it at the same time, `Verif.Model.Ends`).
-/
namespace Scouter
namespace Counting

/-- The settings as read for one service: `ac.TraceActiveserviceYellowTime`, `ac.TraceActiveserviceRedTime`, `ac.StuckServiceBaseTimeMs`.
   tctxmanager.go:88, 90, 95. -/
structure Settings where
  yellow : Int
  red : Int
  stuck : Int
deriving DecidableEq, Repr

/-- A service in the table: its transaction id and the time of its start in nanoseconds.  tctxmanager.go:16, 62-64, 87. -/
abbrev Entry := BitVec 64 × Int

/-- What the loop has so far: `active`, and the services for which `fEndStuckServiceForcibly` was called and an alert sent.
   tctxmanager.go:79, 95-103. -/
structure Figures where
  green : Nat := 0
  yellow : Nat := 0
  red : Nat := 0
  stuck : List (BitVec 64) := []
deriving DecidableEq, Repr

/-- The body of the loop.  tctxmanager.go:86-103. -/
def Figures.look (f : Figures) (now : Int) (s : Settings) (e : Entry) : Figures :=
  let elapsed := Trace.activeElapsed now e.2
  let f :=
    if elapsed ≤ s.yellow then { f with green := f.green + 1 }
    else if elapsed ≤ s.red then { f with yellow := f.yellow + 1 }
    else { f with red := f.red + 1 }
  if elapsed > s.stuck then { f with stuck := f.stuck ++ [e.1] } else f

/-- The loop over the listed services, `settings i` being what is read of the settings for the `i`-th; `count` is the loop's counter.
   tctxmanager.go:81-106. -/
def loop (now : Int) (settings : Nat → Settings) : List Entry → Nat → Figures → Figures
  | [], _, f => f
  | e :: es, count, f => if count + 1 > 2000 then f else loop now settings es (count + 1) (f.look now (settings count) e)

/-- `GetActiveCount` from its return of `GetValues` on.  tctxmanager.go:78-106. -/
def count (now : Int) (settings : Nat → Settings) (listed : List Entry) : Figures := loop now settings listed 0 {}

end Counting
end Scouter
