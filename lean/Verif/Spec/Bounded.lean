import Verif.Model.Counter
import Verif.Model.Stepwise
/-! # What the agent holds in memory (specification for C109) -/
namespace Scouter
namespace Bounded

/-- How many profile steps are held for a context. -/
def stepsHeld (w : World) (p : Nat) : Nat := ((w.tctxs[p]?).map fun t => t.col.kept.length).getD 0

/-- How many profile steps the agent holds for the services in its table of running services. -/
def stepsOfRunning (w : World) : Nat := (w.registry.lst.map fun e => (e.value.map (stepsHeld w)).getD 0).sum

/-- How many entries all tables of texts have together. -/
def textsRemembered (w : World) : Nat :=
  ([.error, .apicall, .method, .service, .object, .referer, .userAgent, .login, .desc, .hashMessage, .stackElement].map fun k =>
    (w.proxy.sent k).size).sum

end Bounded
end Scouter
