import Verif.Spec.Stream
/-!
# Calls about other services
-/
namespace Scouter

/-- The position a context refers to. -/
def ctxOf : Ctx → Option Nat
  | .traced p => some p
  | _ => none

/-- The trace context a call works on, if any.  (Continuing the service `q` only reads `q`.) -/
def about : Trace.Call → Option Nat
  | .isStream c | .setAsStream c | .markAsError c _ | .markAsErrorForcibly c _ | .setServiceName c _ | .addStep c _
  | .addMessageStep c _ | .addHashedMessageStep c .. | .addPMessageStep c .. | .startHttpService c _ | .endHttpService c _
  | .startService c .. | .endService c | .goWithTrace c _ | .goBegin c | .startMethod c .. | .startCustomMethod c ..
  | .endMethod c _ | .startApiCall c .. | .startApiCallProp c .. | .endApiCall c .. => ctxOf c
  | .setFields p .. => some p
  | .startInheritance _ | .activeCount _ | .makeStep _ | .conf _ | .samplerRun | .resetTexts _ | .queue _ => none

/-- A count of active services made now would not find the service at `p` stuck: it has not been running for longer than the limit (in
milliseconds; the clock is in nanoseconds). -/
def NotStuck (p : Nat) (w : World) : Prop :=
  ∀ t, w.tctxs[p]? = some t → (w.env.clock w.tick - t.startTime).tdiv 1000000 ≤ w.conf.stuckBase

/-- A call that leaves the service at `p` to itself: it works on another context or none; and the agent's own count of
active services does not end this one, because stuck services are not removed or this one is not stuck. -/
def Elsewhere (p : Nat) (w : World) (c : Trace.Call) : Prop :=
  about c ≠ some p ∧ ∀ o, c = .activeCount o → w.conf.stuckRemove = false ∨ NotStuck p w

end Scouter
