import Verif.Spec.Reply
import Verif.Model.Tcp
import Verif.Props.Packs
/-!
# Requests of a collector and how they may arrive
-/
namespace Scouter
namespace Tcp
open Spec

/-- A request: a command and parameters. -/
structure Request where
  cmd : Bytes
  params : Table

/-- The body of a request: the command text and a map pack. -/
def Request.body (r : Request) : Bytes := ((Out.new.writeString r.cmd).writePack (.map ⟨r.params⟩)).bytes

/-- A request whose texts travel unchanged and whose body has a length that fits. -/
def Request.Good (r : Request) : Prop := GoodText r.cmd ∧ GoodTable r.params ∧ r.body.length < 2 ^ 31

/-- A body with its four-byte length in front. -/
def frame (body : Bytes) : Bytes := (Out.new.writeIntBytes body).bytes

/-- What the handlers answer to a sequence of requests, one after the other. -/
def serve {W : Type} (h : Handler W) (w : W) : List Request → List Answer × W
  | [] => ([], w)
  | r :: rs =>
    let (w, a) := h w r.cmd (.map ⟨r.params⟩)
    let (as, w) := serve h w rs
    (a :: as, w)

/-- The bytes arrive with a break after the first `x` of them. -/
def Cut (c : Conn) (x : Nat) : Prop := ∃ a b, c = a ++ b ∧ a.flatten.length = x

/-- The connection `c` delivers exactly the frames of these bodies and ends, and no break falls inside a body. -/
def Delivers (c : Conn) (bodies : List Bytes) : Prop :=
  [] ∉ c ∧ c.flatten = (bodies.map frame).flatten ∧
  ∀ done body rest, bodies = done ++ body :: rest → ∀ x,
    (done.map frame).flatten.length + 4 < x → x < (done.map frame).flatten.length + 4 + body.length → ¬ Cut c x

/-- The answer `a` is of the kind the collector expects and within the format's limits, and means `d` to the collector. -/
inductive Means : Wire.Kind → Answer → Wire.WReply → Prop
  | nothing : Means .pack ⟨[], none⟩ .nothing
  | pack (p : Pack) (d : Wire.WPack) (h1 : SendablePack p) (h2 : denotePack p = some d)
      (h3 : (Out.new.writePack p).bytes.length < 2 ^ 32) : Means .pack ⟨[], some p⟩ (.pack d)
  | stream (bs : List Bytes) (h : ∀ b ∈ bs, b.length < 2 ^ 31) : Means .stream ⟨bs, none⟩ (.stream bs)

/-- Three lists of equal length whose elements are related. -/
inductive All3 {α β γ : Type} (R : α → β → γ → Prop) : List α → List β → List γ → Prop
  | nil : All3 R [] [] []
  | cons {a b c as bs cs} (h : R a b c) (t : All3 R as bs cs) : All3 R (a :: as) (b :: bs) (c :: cs)

end Tcp
end Scouter
