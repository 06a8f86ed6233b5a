import Verif.Model.Lra
import Verif.Model.Hash
import Verif.Model.Pack
import Verif.Model.Sender
/-!
# Text announcements (scouterx/netio/dataproxy.go)

The calls are modelled one at a time (each is a `Contains`, an `AddKey` and an `AddPack`; two goroutines announcing the
same new text at once may both announce it).
-/
namespace Scouter

/-- The text kinds, one per `Send*` function of dataproxy.go:52-207. -/
inductive TextKind where
  | service | hashMessage | object | referer | userAgent | method | apicall | error | login | desc | stackElement
deriving DecidableEq, Repr

/-- The `texttype` constant each function uses (texttype.go:4-20). -/
def TextKind.textType : TextKind → Bytes
  | service => ascii "service"
  | hashMessage => ascii "hmsg"
  | object => ascii "object"
  | referer => ascii "referer"
  | userAgent => ascii "ua"
  | method => ascii "method"
  | apicall => ascii "apicall"
  | error => ascii "error"
  | login => ascii "login"
  | desc => ascii "desc"
  | stackElement => ascii "stackelem"

/-- The bounds of the caches, dataproxy.go:16-26. -/
def TextKind.limit : TextKind → Int
  | object => 100
  | _ => 10000

/-- The package's state: one cache per kind (dataproxy.go:16-26) and the UDP sender.  `offered` (ghost) logs the text
packs given to `AddPack`, `direct` those given to `SendPackDirect`. -/
structure Proxy where
  sent : TextKind → Cache (BitVec 32) Unit
  sender : Sender.State
  offered : List TextPack := []
  direct : List Pack := []

namespace Proxy

/-- The state at start, with a send queue of capacity `cap`.  dataproxy.go:14-26. -/
def init (cap : Nat) : Proxy :=
  { sent := fun k => Cache.new k.limit false, sender := { cap := cap } }

/-- `AddPack` of a text pack, udpsender.go:69-77. -/
def addPack (p : Proxy) (t : TextPack) : Proxy :=
  { p with
    offered := p.offered ++ [t]
    sender := Sender.add p.sender (Out.new.writePack (.text t)).bytes }

/-- `SendServiceName`, `SendHashedMessage`, `SendObjName`, `SendReferer`, `SendUserAgent`, `SendMethod`, `SendApicall`,
`SendError`, `SendLogin`, `SendDesc`, `SendStackElement`: dataproxy.go:52-154 and :170-207, which differ only in the
cache and the text type.  `AddKey` (lra.go:34-36) adds the marker `itemExists`. -/
def sendText (p : Proxy) (k : TextKind) (name : Bytes) : Proxy × BitVec 32 :=
  if name = [] then (p, 0)
  else
    let h := hash name
    if (p.sent k).contains h then (p, h)
    else
      let p := { p with sent := fun k' => if k' = k then (p.sent k).add h (some ()) else p.sent k' }
      (p.addPack ⟨k.textType, h, name⟩, h)

/-- `ResetTextSent`, dataproxy.go:28-40. -/
def resetTextSent (p : Proxy) (o : MapOrder (BitVec 32 × Nat)) : Proxy :=
  { p with sent := fun k => (p.sent k).clear o }

/-- A call, or anything that happens meanwhile to the send queue (`queue s` makes it `s`).  dataproxy.go:28-207. -/
inductive Op where
  | send (k : TextKind) (name : Bytes)
  | reset (o : MapOrder (BitVec 32 × Nat))
  | queue (s : Sender.State)

/-- One call; what it returned, if anything.  dataproxy.go:28-207. -/
def step (p : Proxy) : Op → Proxy × Option (BitVec 32)
  | .send k name => let (p, h) := p.sendText k name; (p, some h)
  | .reset o => (p.resetTextSent o, none)
  | .queue s => ({ p with sender := s }, none)

/-- A sequence of calls.  Model only: histories of calls of dataproxy.go:28-207. -/
def run (p : Proxy) : List Op → Proxy
  | [] => p
  | op :: ops => (p.step op).1.run ops

end Proxy
end Scouter
