import Verif.Model.Program
import Verif.Spec.Config
/-!
# The program and its settings
-/
namespace Scouter
namespace Program
open Trace Handlers Counter Config

/-- The maximum of a datagram in effect. -/
def maxBytes (p : State) : Int := p.agent.conf.intAt "UDPMaxBytes"

/-- Announcements are to be traced (`trace_obj_send`). -/
def traced (p : State) : Bool := p.agent.conf.boolAt "TraceObjSend"

/-- The configuration file at start: there is none, or it can be read and says this. -/
def Finds (m : Machine) (b : Boot) (file : Option Props) : Prop :=
  (b.text = none ∧ file = none) ∨
  ∃ t text content, b.text = some (t, text) ∧ 0 < t ∧ m.readable 0 = true ∧ m.parse text = some content ∧ file = some content

/-- The call writes something. -/
def Writes : Sender.Call → Prop
  | .buffer b => b ≠ []
  | .list bs => ∃ b ∈ bs, b ≠ []

/-- At every moment of the history the state is such. -/
def Throughout (f : Floats) (m : Machine) (P : State → Prop) (p : State) (es : List Event) : Prop :=
  ∀ n q, life f m p (es.take n) = some q → P q

end Program
end Scouter
