import Verif.Spec.Recording
import Verif.Spec.Services
/-!
# What is told of a service ended because it is stuck
-/
namespace Scouter
open Trace

namespace Spec

/-- The error a service ended as stuck is logged with: its own, if it has one. -/
def stuckErrorOf (t : Tctx) : BitVec 32 :=
  if t.error = 0 then textHash (ascii "This stuck service currently may running, not finished!") else t.error

/-- The last step of its profile: an error message, at the given time after its start. -/
def stuckStep (t : Tctx) (ms : BitVec 32) : Step :=
  stepAt t 0 ms (.pmessage (textHash (ascii "Service currently may running, not finished!")) 0 3 [])

/-- What is told, between `w` and `w'`, of the service at `p` that is ended as stuck: `x` is its log, with what was kept about the service and
the error; its profile is complete, with one step more that says it was stuck. -/
structure ToldStuck (w w' : World) (p : Nat) (x : XlogPack) : Prop where
  told : ∃ (t t' : Tctx) (ms elapsed : BitVec 32) (i : Nat) (size count : BitVec 32),
    w.tctxs[p]? = some t ∧ t.closed = false ∧ w'.tctxs[p]? = some t' ∧ t'.closed = true ∧
    t'.txid = t.txid ∧ t'.recorded = t.recorded ++ [i] ∧ t'.sentSteps = t'.recorded ∧ w'.steps[i]? = some (stuckStep t ms) ∧
    ReadDuring t w w' ms ∧ ReadDuring t w w' elapsed ∧
    x = { xlogFor t discardNone elapsed with error := stuckErrorOf t, objHash := w.conf.objHash, profileSize := size, profileCount := count }

end Spec

end Scouter
