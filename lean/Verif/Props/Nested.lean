import Verif.Props.Ending
/-!
# C40, C44: starts on a traced context; calls without a trace
-/
namespace Scouter
open TM Trace

/-! ## C44 -/

/-- The context a tracing call is made with, for the calls that act on the trace of a context. -/
def tracingCtx : Call → Option Ctx
  | .isStream c | .setAsStream c | .markAsError c _ | .markAsErrorForcibly c _ | .setServiceName c _ | .addStep c _
  | .addMessageStep c _ | .addHashedMessageStep c _ _ _ | .addPMessageStep c _ _ _ _ | .endHttpService c _ | .endService c
  | .goWithTrace c _ | .goBegin c | .startMethod c _ _ | .startCustomMethod c _ _ | .endMethod c _ | .startApiCall c _ _
  | .startApiCallProp c _ _ _ | .endApiCall c _ _ => some c
  | _ => none

/-- **C44**: a tracing call (any but the starts of services) made with a nil context, or with a context that carries no
trace, changes nothing at all: nothing is sent, counted, registered or recorded, and it returns normally. -/
theorem C44_no_trace_is_inert (w : World) (call : Call) (c : Ctx) (h : tracingCtx call = some c) (hc : c = .nil ∨ c = .plain) :
    call.code w = (.ok (), w) := by
  have hn : traceOf w c = none := by rcases hc with rfl | rfl <;> rfl
  have wt : ∀ {α : Type} (d : α) (f : Nat → TM α), withTrace c d f w = (.ok d, w) := fun d f => withTrace_none hn d f
  have dr : ∀ {α : Type} {m : TM α} {a : α}, m w = (.ok a, w) → (m >>= fun _ => pure ()) w = (Outcome.ok (), w) := by
    intro α m a h; rw [TM.bind_ok h]; rfl
  cases call <;> simp only [tracingCtx, Option.some.injEq, reduceCtorEq] at h <;> subst h
  case isStream => exact dr (recovered_ok (wt _ _))
  case setAsStream => exact dr (recovered_ok (wt _ _))
  case markAsError => exact recovered_ok (wt _ _)
  case markAsErrorForcibly => exact recovered_ok (wt _ _)
  case setServiceName => exact recovered_ok (wt _ _)
  case addStep => exact recovered_ok (wt _ _)
  case addMessageStep => exact recovered_ok (wt _ _)
  case addHashedMessageStep => exact recovered_ok (wt _ _)
  case addPMessageStep => exact recovered_ok (wt _ _)
  case endHttpService s =>
    refine recovered_ok ?_
    cases s with
    | none => exact wt _ _
    | some s => exact wt _ _
  case endService => exact recovered_ok (wt _ _)
  case goWithTrace => exact dr (recovered_ok (by unfold startChild; rw [TM.bind_ok (wt _ _)]; rfl))
  case goBegin => exact wt _ _
  case startMethod => exact dr (recovered_ok (wt _ _))
  case startCustomMethod => exact dr (recovered_ok (wt _ _))
  case endMethod p =>
    refine recovered_ok ?_
    cases p with
    | none => rfl
    | some p => exact wt _ _
  case startApiCall => exact dr (recovered_ok (wt _ _))
  case startApiCallProp => exact dr (recovered_ok (wt _ _))
  case endApiCall p e =>
    refine recovered_ok ?_
    cases p with
    | none => rfl
    | some p => exact wt _ _

/-- **C44**: what such calls return: no stream, no step, and no header for the outgoing request; GoWithTrace still runs the
function, with the context it was given. -/
theorem C44_results (w : World) (c : Ctx) (hc : c = .nil ∨ c = .plain) (name address : Bytes) (ps : List (Option Bytes)) (r : Bool) :
    isStream c w = (.ok false, w) ∧ setAsStream c w = (.ok false, w) ∧ startMethod c name ps w = (.ok none, w) ∧
    startCustomMethod c name ps w = (.ok none, w) ∧ startApiCall c name address w = (.ok none, w) ∧
    startApiCallProp c name address r w = (.ok (none, []), w) ∧ goWithTrace c name w = (.ok (some c), w) := by
  have hn : traceOf w c = none := by rcases hc with rfl | rfl <;> rfl
  have wt : ∀ {α : Type} (d : α) (f : Nat → TM α), withTrace c d f w = (.ok d, w) := fun d f => withTrace_none hn d f
  exact ⟨recovered_ok (wt _ _), recovered_ok (wt _ _), recovered_ok (wt _ _), recovered_ok (wt _ _), recovered_ok (wt _ _),
    recovered_ok (wt _ _), recovered_ok (by unfold startChild; rw [TM.bind_ok (wt _ _)]; rfl)⟩

/-- A traced context is not covered: there the calls do act. -/
example : (perform Demo.world (.addMessageStep (.traced 1) (ascii "x"))).steps.length = Demo.world.steps.length + 1 := by
  decide +kernel

/-! ## C40 -/

/-- **C40**: starting a service on a context that carries a trace returns that context and does nothing else. -/
theorem C40_nested_start_joins (w : World) (p : Nat) (h : p < w.tctxs.length) (name ip : Bytes) (r : Option Request) :
    startServiceApi (.traced p) name ip w = (.ok (.traced p), w) ∧ startHttpService (.traced p) r w = (.ok (.traced p), w) := by
  have ht : traceOf w (.traced p) = some p := by simp [traceOf, h]
  constructor
  · unfold startServiceApi
    rw [TM.get_bind, ht]
    rfl
  · unfold startHttpService
    rw [if_neg (by simp), TM.get_bind, ht]
    rfl

/-- **C40**, the consequence: the end that matches a nested start ends the outer service, and the outer service's own end
then does nothing. -/
theorem C40_inner_end_ends_the_outer_service (w : World) (p : Nat) (h : p < w.tctxs.length) (name ip : Bytes) :
    let w1 := perform w (.startService (.traced p) name ip)
    let w2 := perform w1 (.endService (.traced p))
    w1 = w ∧ (w2.tctxs[p]?).map (·.closed) = some true ∧ perform w2 (.endService (.traced p)) = w2 := by
  intro w1 w2
  have h1 : w1 = w := by
    show ((Trace.startServiceApi (.traced p) name ip >>= fun _ => pure ()) w).2 = w
    rw [TM.bind_ok (C40_nested_start_joins w p h name ip none).1]
    rfl
  have h2 : (w2.tctxs[p]?).map (·.closed) = some true := by
    show ((perform w1 (.endService (.traced p))).tctxs[p]?).map (·.closed) = some true
    rw [h1]
    exact C36_end_ends w p h
  refine ⟨h1, h2, ?_⟩
  cases ht : w2.tctxs[p]? with
  | none => rw [ht] at h2; simp at h2
  | some t =>
    rw [ht] at h2
    have hcl : t.closed = true := by simpa using h2
    exact (C36_end_of_ended_service_is_inert w2 p t ht hcl none).1

/-- **C40**, as found: a context whose service has ended still carries it, so a service started on it afterwards is not
traced: nothing is registered by its start, and nothing is sent, counted or changed by its end. -/
theorem C40_start_after_end_is_lost (w : World) (p : Nat) (t : Tctx) (h : w.tctxs[p]? = some t) (hc : t.closed = true)
    (name ip : Bytes) :
    perform (perform w (.startService (.traced p) name ip)) (.endService (.traced p)) = w := by
  have hp : p < w.tctxs.length := (List.getElem?_eq_some_iff.mp h).1
  have h1 := (C40_inner_end_ends_the_outer_service w p hp name ip).1
  rw [h1]
  exact (C36_end_of_ended_service_is_inert w p t h hc none).1

example : (0 : Nat) < Demo.world.tctxs.length ∧ (Demo.world.tctxs[0]?).map (·.closed) = some true := by decide +kernel

end Scouter
