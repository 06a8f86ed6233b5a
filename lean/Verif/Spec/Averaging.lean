import Verif.Model.ConcurrentValue
/-!
# Vocabulary for goroutines recording and averaging values at the same time
-/
namespace Scouter
namespace ConcurrentValue

/-- The second by which a call must be over: an `Add` within 300 seconds after it looked at the clock, a reading of `p` seconds within `301 - p`
(so that what it reads is not reused for a new second). -/
def deadline : Pc → Option Int
  | .load a _ | .store a _ _ | .unlock a => some (a.record.1 + 300)
  | .scan c _ => some (c.second + 301 - min c.period 300)
  | _ => none

/-- No call under way is late. -/
def Timely (s : State) : Prop := ∀ g ∈ s.gors, ∀ d, deadline g.pc = some d → s.shared.now ≤ d

/-- No call is ever late in this history. -/
def AllTimely (s : State) (es : List Event) : Prop := ∀ n, Timely (s.run (es.take n))

end ConcurrentValue
end Scouter
