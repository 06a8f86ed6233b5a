import Verif.Spec.Services
import Verif.Props.Dataproxy
/-!
# Texts a log or a profile refers to

Logs and profile steps name texts by their hash and kind; the collector knows the text from an announcement of that kind and hash.
-/
namespace Scouter
open Spec

/-- Among these announcements is one of this kind and hash, and the hash is that of its text; 0 refers to nothing. -/
def Known (announced : List TextPack) (k : TextKind) (h : BitVec 32) : Prop :=
  h = 0 ∨ ∃ text, ⟨ascii (kindCode k), h, text⟩ ∈ announced ∧ crc32 text = h

/-- The texts a step refers to. -/
def stepRefs (s : Step) : List (TextKind × BitVec 32) :=
  match s.body with
  | .method h _ _ => [(.method, h)]
  | .message _ => []
  | .hashed h _ _ => [(.hashMessage, h)]
  | .pmessage h _ _ _ => [(.hashMessage, h)]
  | .apicall _ h _ _ e _ _ => [(.apicall, h), (.error, e)]
  | .async _ h _ => [(.apicall, h)]
  | .dump hs _ _ _ _ _ _ => hs.map (.stackElement, ·)

/-- The texts a log refers to and that are announced (if need be) when the service ends: its name, the thread's, login, description. -/
def resentRefs (x : XlogPack) : List (TextKind × BitVec 32) :=
  [(.service, x.service), (.hashMessage, x.threadNameHash), (.login, x.login), (.desc, x.desc)]

/-- The other texts a log refers to: the error, the user agent, the referer. -/
def keptRefs (x : XlogPack) : List (TextKind × BitVec 32) :=
  [(.error, x.error), (.userAgent, x.userAgent), (.referer, x.referer)]

/-- Steps made by the application itself refer to no text (there is no function of the API to announce one). -/
def OwnStepsPlain (cs : List Trace.Call) : Prop := ∀ s, Trace.Call.makeStep s ∈ cs → ∀ r ∈ stepRefs s, r.2 = 0

/-- The packs refer to known texts only. -/
def Resolved (announced : List TextPack) (packs : List Pack) : Prop :=
  (∀ x ∈ xlogsOf packs, ∀ r ∈ resentRefs x ++ keptRefs x, Known announced r.1 r.2) ∧
  (∀ o, Pack.object o ∈ packs → Known announced .object o.objHash) ∧
  ∀ pk ∈ profilesOf packs, Known announced .service pk.service ∧
    ∃ ss : List Step, pk.profile = stepsToBytes (ss.map some) ∧ ∀ s ∈ ss, ∀ r ∈ stepRefs s, Known announced r.1 r.2

end Scouter
