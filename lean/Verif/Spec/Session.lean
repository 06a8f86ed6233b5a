import Verif.Model.Session
import Verif.Spec.Requests
/-!
# What a connection that may fail brings the collector
-/
namespace Scouter
namespace Session
open Tcp

/-- The agent's greeting: its protocol and its object's hash. -/
def greeting (objHash : BitVec 32) : Bytes := Out.be32 0xCAFE1002 ++ Out.be32 objHash

/-- The bytes of the stream that the connection accepts before it fails. -/
def Room.cut : Room → Bytes → Bytes
  | none, bs => bs
  | some n, bs => bs.take n

/-- The connection accepts this many bytes. -/
def Room.Takes : Room → Nat → Prop
  | none, _ => True
  | some n, k => k ≤ n

/-- The length of the greeting and the first `j` of these replies. -/
def upTo (j : Nat) (as : List Answer) : Nat := 8 + ((as.take j).map reply).flatten.length

/-- Nobody changes the settings. -/
def Others.none {W : Type} : Others W := ⟨id, fun _ => id, fun _ => id⟩

/-- Whatever the others and the handlers do, they leave these settings alone once the connection is made. -/
structure Leaves {W : Type} (h : Handler W) (look : W → Target) (o : Others W) : Prop where
  before : ∀ i w, look (o.before i w) = look w
  waiting : ∀ i w, look (o.waiting i w) = look w
  handler : ∀ w cmd p, look (h w cmd p).1 = look w

end Session
end Scouter
