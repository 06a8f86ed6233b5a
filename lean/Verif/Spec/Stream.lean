import Verif.Spec.Services
/-!
# What a collector receives of a service's profile
-/
namespace Scouter

/-- The profile bytes received for a transaction id, over all packs sent so far, in order. -/
def profileStream (w : World) (id : BitVec 64) : Bytes :=
  ((profilesOf w.proxy.direct).filter (fun pk => pk.txid == id)).flatMap (·.profile)

/-- A call that does not finish (or add) a step a second time: the step is not in any profile yet. -/
def Once (w : World) : Trace.Call → Prop
  | .addStep _ (some i) => ∀ t ∈ w.tctxs, i ∉ t.recorded
  | .endMethod _ (some i) => ∀ t ∈ w.tctxs, i ∉ t.recorded
  | .endApiCall _ (some i) _ => ∀ t ∈ w.tctxs, i ∉ t.recorded
  | _ => True

/-- No call of a history finishes a step a second time. -/
def AllOnce : World → List Trace.Call → Prop
  | _, [] => True
  | w, c :: cs => Once w c ∧ AllOnce (Trace.perform w c) cs

end Scouter
