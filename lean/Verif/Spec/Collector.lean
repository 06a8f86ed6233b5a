import Verif.Spec.Network
import Verif.Spec.References
import Verif.Props.Delivery
/-!
# What a collector shows

A collector knows texts from the announcements it obtained.  Logs and profiles come with hashes; what is shown for a hash is the text announced for
it.  The profile of a transaction is what arrived for its id, one pack after the other.
-/
namespace Scouter
open Wire Spec

/-- The collector shows this text for this kind and hash: it was told it, and told no other. -/
def Shows (obtained : List WPack) (k : TextKind) (h : Int) (text : Bytes) : Prop :=
  .text (ascii (kindCode k)) h (shown text) ∈ obtained ∧ ∀ s, .text (ascii (kindCode k)) h s ∈ obtained → s = shown text

/-- The collector has a text to show, one with that hash; 0 stands for none. -/
def Named (obtained : List WPack) (k : TextKind) (h : Int) : Prop :=
  h = 0 ∨ ∃ text, .text (ascii (kindCode k)) h (shown text) ∈ obtained ∧ (crc32 text).toInt = h

/-- The texts a log refers to. -/
def logRefs (x : Xlog) : List (TextKind × Int) :=
  [(.service, x.service), (.hashMessage, x.threadNameHash), (.login, x.login), (.desc, x.desc),
   (.error, x.error), (.userAgent, x.userAgent), (.referer, x.referer)]

/-- The logs of a transaction. -/
def logsOfId (obtained : List WPack) (id : Int) : List Xlog :=
  obtained.filterMap fun q => match q with
    | .xlog x => if x.txid = id then some x else none
    | _ => none

/-- The profile bytes of one pack, if it is a profile pack of this transaction. -/
def profileBytes (id : Int) : WPack → Bytes
  | .profile _ _ _ txid b => if txid = id then b else []
  | _ => []

/-- The profile of a transaction, as far as obtained. -/
def profileFor (obtained : List WPack) (id : Int) : Bytes := obtained.flatMap (profileBytes id)

/-- How all an agent has to send leaves it: each pack sent directly by a call of its own, and all announcements through the queue, none of them
dropped and none left in it, by the calls the sending goroutine made.  Every call is within the limits and draws packet ids of its own. -/
structure Traffic (w : World) where
  /-- the queue and its goroutine, in any state their interleaving with the announcing goroutines leads to, at rest -/
  queue : Sender.State
  reachable : Sender.Reachable queue
  rest : queue.queue = [] ∧ queue.phase = .top
  accepted : queue.accepted = w.proxy.offered.map fun t => onWire (.text t)
  /-- maximum and packet ids of each call -/
  max : Nat → Nat
  ids : Nat → Nat → BitVec 64
  queueMax : Nat → Nat
  queueIds : Nat → Nat → BitVec 64

/-- The calls for the packs sent directly. -/
def Traffic.direct {w : World} (tr : Traffic w) : List Transmission := directCalls w.proxy.direct tr.max tr.ids

/-- The calls of the sending goroutine. -/
def Traffic.queued {w : World} (tr : Traffic w) : List Transmission :=
  tr.queue.calls.mapIdx fun i c => { call := c, max := tr.queueMax i, ids := tr.queueIds i }

/-- All calls. -/
def Traffic.calls {w : World} (tr : Traffic w) : List Transmission := tr.direct ++ tr.queued

/-- The calls are within the limits and no two draw the same packet id. -/
structure Traffic.Ok {w : World} (tr : Traffic w) : Prop where
  small : ∀ i, tr.max i ≤ 65535
  fits : ∀ t ∈ tr.calls, t.Fits
  distinct : (tr.calls.flatMap Transmission.drawable).Nodup

/-- The datagrams of a call. -/
def datagramsOf (t : Transmission) : List Bytes :=
  match callSend t.ids t.max t.call with
  | .ok (_, ds) => ds
  | _ => []

end Scouter
