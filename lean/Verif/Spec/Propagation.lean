import Verif.Spec.Recording
import Verif.Model.Propagation
/-!
# Outgoing requests as objects: vocabulary
-/
namespace Scouter
namespace Propagation
open Trace

/-- The values that headers `hs` have for a key. -/
def valuesIn (hs : List (Bytes × Bytes)) (key : Bytes) : List Bytes := (hs.filter fun e => e.1 = key).map (·.2)

/-- The two worlds differ in this only: the second has sent one more alert (a fatal one with the title "Panic"). -/
structure AlertMore (w w' : World) : Prop where
  env : w'.env = w.env
  conf : w'.conf = w.conf
  tctxs : w'.tctxs = w.tctxs
  steps : w'.steps = w.steps
  registry : w'.registry = w.registry
  metered : w'.metered = w.metered
  sampler : w'.sampler = w.sampler
  sent : ∃ msg, w'.proxy = { w.proxy with direct := w.proxy.direct ++ [.alert
    { time := 0, objType := w.conf.objType, objHash := w.conf.objHash, level := 3, title := ascii "Panic", message := msg, tags := [] }] }

/-- The application leaves the headers of request `i` to the agent. -/
def LeavesAlone (i : Nat) (acts : List Act) : Prop := ∀ f, Act.change i f ∉ acts

/-- Request `i` has these headers. -/
def App.has (a : App) (i : Nat) (h : Header) : Prop := a.requests[i]? = some (some h)

/-- The headers made for an api call with this context: those of the service it carries, if any. -/
def headersFor (w : World) : Ctx → List (Bytes × Bytes)
  | .traced p =>
    match w.tctxs[p]? with
    | some t => propagated w t (w.env.id (w.tick + 1))
    | none => []
  | _ => []

/-- What the api calls made with request `i` were said to be, in their order: the headers made for each of them, from the state
of the calling service when it was made. -/
def told (i : Nat) : App → List Act → List (Bytes × Bytes)
  | _, [] => []
  | a, act :: acts =>
    (match act with
      | .propagate c j _ _ => if j = i then headersFor a.world c else []
      | _ => []) ++ told i (a.act act) acts

/-- The calls are well formed when they are made, and every request used has headers. -/
def AllProper : App → List Act → Prop
  | _, [] => True
  | a, act :: acts =>
    (match act with
      | .call c => WellFormed a.world c
      | .propagate _ j _ _ => a.requests[j]? ≠ some none
      | _ => True) ∧ AllProper (a.act act) acts

end Propagation
end Scouter
