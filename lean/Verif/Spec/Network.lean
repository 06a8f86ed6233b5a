import Verif.Spec.Datagram
import Verif.Spec.WirePack
import Verif.Model.Sender
/-!
# The network and the collector

The collector reads every datagram it received; fragments are joined when the one with number 0 is looked at.
-/
namespace Scouter.Wire

/-- What a collector that has received `rs` obtains from one of the datagrams. -/
def obtainedFrom (rs : List Datagram) : Datagram → List WPack
  | .frag _ id total num _ =>
    if num = 0 then
      match reassemble id total.toNat rs with
      | some b =>
        match pack b with
        | some (q, []) => [q]
        | _ => []
      | none => []
    else []
  | d => (records pack d).getD []

/-- The packs a collector obtains from the datagrams it received. -/
def obtained (received : List Bytes) : List WPack :=
  let rs := received.filterMap datagram
  rs.flatMap (obtainedFrom rs)

end Scouter.Wire

namespace Scouter
open Wire

/-- A call of the UDP client: what it was given, its maximum, and the packet ids it may draw. -/
structure Transmission where
  call : Sender.Call
  max : Nat
  ids : Nat → BitVec 64

/-- The buffers of a call. -/
def Transmission.buffers (t : Transmission) : List Bytes :=
  match t.call with
  | .buffer b => [b]
  | .list bs => bs

/-- The packet ids a call may draw: one for each buffer. -/
def Transmission.drawable (t : Transmission) : List (BitVec 64) := (List.range t.buffers.length).map t.ids

/-- Within the limits of the protocol: a positive maximum, fewer than 32768 buffers, none of more than 32767 fragments. -/
def Transmission.Fits (t : Transmission) : Prop :=
  0 < t.max ∧ t.max < 2 ^ 31 ∧ t.buffers.length < 32768 ∧ ∀ b ∈ t.buffers, b.length ≤ 32767 * t.max

/-- What a pack is on the wire. -/
def onWire (p : Pack) : Bytes := (Out.new.writePack p).bytes

/-- The transaction id of a log. -/
def logId? : WPack → Option Int
  | .xlog x => some x.txid
  | _ => none

/-- The transaction ids of the logs among what the collector obtained. -/
def obtainedIds (qs : List WPack) : List Int := qs.filterMap logId?

/-- Each pack sent directly has a call of the UDP client of its own, with the maximum and the packet ids of that call. -/
def directCalls (packs : List Pack) (max : Nat → Nat) (ids : Nat → Nat → BitVec 64) : List Transmission :=
  packs.mapIdx fun i p => { call := .buffer (onWire p), max := max i, ids := ids i }

end Scouter
