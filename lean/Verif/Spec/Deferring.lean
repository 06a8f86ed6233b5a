import Verif.Model.Deferring
/-! # What an application sees of its own panics (specification for C108) -/
namespace Scouter
namespace Deferring

/-- The same application without the agent: the calls of the API are simply not there. -/
def App.untraced : App → Prog
  | .done => .done
  | .act n k => .act (.app n) k.untraced
  | .panic v => .panic v
  | .call f k => .call f.untraced fun b => (k b).untraced
  | .defer f k => .defer f.untraced k.untraced
  | .recover k => .recover fun s => (k s).untraced
  | .trace _ k => (k true).untraced
  | .deferTrace _ k => k.untraced

/-- What the application did, in order. -/
def appEvents (es : List Event) : List Nat := es.filterMap fun | .app n => some n | _ => none

/-- The alerts sent of panics, in order. -/
def alerts (es : List Event) : List Val := es.filterMap fun | .alert v => some v | _ => none

/-- Code of the agent only: all it does is what the agent does (`Event.agent`). -/
def OfAgent : Prog → Prop
  | .done => True
  | .act e k => (∃ n, e = .agent n) ∧ OfAgent k
  | .panic _ => True
  | .call f k => OfAgent f ∧ ∀ b, OfAgent (k b)
  | .defer f k => OfAgent f ∧ OfAgent k
  | .recover k => ∀ s, OfAgent (k s)

/-- The function does not call `recover` itself (functions that it calls or defers may). -/
def NoRecover : Prog → Prop
  | .done => True
  | .act _ k => NoRecover k
  | .panic _ => True
  | .call _ k => ∀ b, NoRecover (k b)
  | .defer _ k => NoRecover k
  | .recover _ => False

/-- The body of an API function: code of the agent that leaves recovering to the reporter.  (In the source the two calls of
`recover` are in the two handlers.) -/
def ApiBody (t : Prog) : Prop := OfAgent t ∧ NoRecover t

/-- The function does not panic. -/
def NoPanic (t : Prog) : Prop := ∀ seen, (exec t seen).raised = none

/-- Every call of the API in the application has a body of the agent's own, which does not panic unless the application makes
no difference between the result and a zero value. -/
def App.Uses : App → Prop
  | .done => True
  | .act _ k => k.Uses
  | .panic _ => True
  | .call f k => f.Uses ∧ ∀ b, (k b).Uses
  | .defer f k => f.Uses ∧ k.Uses
  | .recover k => ∀ s, (k s).Uses
  | .trace body k => ApiBody body ∧ (k true = k false ∨ ∀ seen, (exec body seen).completed = true) ∧ ∀ b, (k b).Uses
  | .deferTrace body k => ApiBody body ∧ k.Uses

/-- No call of the API panics inside. -/
def App.Calm : App → Prop
  | .done => True
  | .act _ k => k.Calm
  | .panic _ => True
  | .call f k => f.Calm ∧ ∀ b, (k b).Calm
  | .defer f k => f.Calm ∧ k.Calm
  | .recover k => ∀ s, (k s).Calm
  | .trace body k => NoPanic body ∧ ∀ b, (k b).Calm
  | .deferTrace body k => NoPanic body ∧ k.Calm

/-- What the agent is given to report panics with works: it returns, and does nothing of the application's. -/
def Works (send : Option (Val → Prog)) : Prop :=
  ∃ s, send = some s ∧ ∀ v, (exec (s v) none).raised = none ∧ appEvents (exec (s v) none).events = []

end Deferring
end Scouter
