import Verif.Model.Sweeping
import Verif.Spec.Services
/-!
# Vocabulary for counts made while the application goes on
-/
namespace Scouter
namespace Sweeping
open Trace

/-- Every call is well formed when it is made. -/
def AllFine : State → List Event → Prop
  | _, [] => True
  | s, e :: es => (match e with | .call c => WellFormed s.world c | _ => True) ∧ AllFine (s.step e) es

/-- Whether the service of `t` runs for longer than the stuck limit, at the clock reading `now`. -/
def isStuck (w : World) (now : Int) (t : Tctx) : Prop := w.conf.stuckBase < (now - t.startTime).tdiv 1000000

instance (w : World) (now : Int) (t : Tctx) : Decidable (isStuck w now t) := inferInstanceAs (Decidable (_ < _))

/-- The counter goroutine before its first count. -/
def fresh (env : Oracle) (conf : TraceConf) (cap : Nat) : State := { world := start env conf cap }

end Sweeping
end Scouter
