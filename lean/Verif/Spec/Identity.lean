import Verif.Model.Identity
import Verif.Props.Hash
/-!
# Vocabulary for the agent's name, hash and type and the collector's address while the configuration is loaded again and again
-/
namespace Scouter
open Spec
namespace Identity

/-- One configuration: the name without the host's, the object's name, its type, and the collector's address and ports. -/
structure Version where
  simple : Ref
  name : Ref
  type : Ref
  ip : Ref
  udp : Nat
  tcp : Nat
deriving DecidableEq, Repr

/-- The configuration a load makes. -/
def Reload.version (r : Reload) : Version := ⟨r.simple, r.name, r.type, r.ip, r.udp, r.tcp⟩

/-- The configurations there are in the course of time: the first, and what each load makes. -/
def versions (v : Version) (rs : List Reload) : List Version := v :: rs.map Reload.version

/-- The words when the configuration is `v`. -/
def Version.words (h : Heap) (v : Version) : Mem
  | .simplePtr => v.simple.ptr
  | .simpleLen => v.simple.len
  | .namePtr => v.name.ptr
  | .nameLen => v.name.len
  | .hash => (crc32 (h.text v.name)).toNat
  | .typePtr => v.type.ptr
  | .typeLen => v.type.len
  | .ipPtr => v.ip.ptr
  | .ipLen => v.ip.len
  | .udpPort => v.udp
  | .tcpPort => v.tcp

/-- The agent with configuration `v`, which is going to be loaded again as in `rs`; no pack has been begun. -/
def agent (h : Heap) (v : Version) (rs : List Reload) : State := { mem := v.words h, next := rs }

/-- How many loads have begun. -/
def State.begun (s : State) : Nat := if s.now = [] then s.complete else s.complete + 1

/-- What a pack should tell when the configuration is `v`. -/
def Version.says (h : Heap) (v : Version) : Kind → Said
  | .counters _ => .counters (h.text v.name)
  | .object _ _ => .object (h.text v.name) (crc32 (h.text v.name)) (h.text v.type)
  | .alert _ => .alert (h.text v.type) (crc32 (h.text v.name))
  | .log => .log (crc32 (h.text v.name))
  | .dial _ => .dial (h.text v.ip) v.tcp (crc32 (h.text v.name))
  | .udp _ => .udp (h.text v.ip) v.udp
  | .watch _ => .watch (crc32 (h.text v.name)) (h.text v.ip) v.tcp

/-- `v` is configuration number `i` of `vs`, one of those from `lo` to `hi`. -/
def Among (vs : List Version) (lo hi i : Nat) (v : Version) : Prop := vs[i]? = some v ∧ lo ≤ i ∧ i ≤ hi

/-- `n` is the text at the place of one's name, of the length of another's. -/
def NameOf (h : Heap) (vs : List Version) (lo hi : Nat) (n : Bytes) : Prop :=
  ∃ i v j u, Among vs lo hi i v ∧ Among vs lo hi j u ∧ n = h.text ⟨v.name.ptr, u.name.len⟩

/-- `n` is the text at the place of one's type, of the length of another's. -/
def TypeOf (h : Heap) (vs : List Version) (lo hi : Nat) (n : Bytes) : Prop :=
  ∃ i v j u, Among vs lo hi i v ∧ Among vs lo hi j u ∧ n = h.text ⟨v.type.ptr, u.type.len⟩

/-- `n` is the text at the place of one's collector address, of the length of another's. -/
def HostOf (h : Heap) (vs : List Version) (lo hi : Nat) (n : Bytes) : Prop :=
  ∃ i v j u, Among vs lo hi i v ∧ Among vs lo hi j u ∧ n = h.text ⟨v.ip.ptr, u.ip.len⟩

/-- What a pack may tell that is made while the configurations are those from `lo` to `hi`. -/
def MaySay (h : Heap) (vs : List Version) (lo hi : Nat) : Said → Prop
  | .counters n => NameOf h vs lo hi n
  | .object n x t => NameOf h vs lo hi n ∧ x = crc32 n ∧ TypeOf h vs lo hi t
  | .alert t x => ∃ j v, Among vs lo hi j v ∧ x = crc32 (h.text v.name) ∧ TypeOf h vs lo j t
  | .log x => ∃ j v, Among vs lo hi j v ∧ x = crc32 (h.text v.name)
  | .dial n p x => ∃ j v, Among vs lo hi j v ∧ x = crc32 (h.text v.name) ∧ HostOf h vs lo j n ∧ ∃ i u, Among vs lo j i u ∧ p = u.tcp
  | .udp n p => HostOf h vs lo hi n ∧ ∃ i u, Among vs lo hi i u ∧ p = u.udp
  | .watch x n p => (∃ j v, Among vs lo hi j v ∧ x = crc32 (h.text v.name)) ∧ HostOf h vs lo hi n ∧ ∃ i u, Among vs lo hi i u ∧ p = u.tcp

/-- The condition under which a session begun as `hash` with the collector at `host` and `port` goes on, tcpclient.go:83. -/
def Said.goesOn (hash : BitVec 32) (host : Bytes) (port : Nat) : Said → Prop
  | .watch x n p => hash = x ∧ host = n ∧ port = p
  | _ => False

/-- What `SendXlog`, `SendProfile`, `SendAlert` and outgoing requests carry, and sessions with the collector are registered with. -/
def Said.filed : Said → Option (BitVec 32)
  | .counters _ => none
  | .object _ _ _ => none
  | .alert _ x => some x
  | .log x => some x
  | .dial _ _ x => some x
  | .udp _ _ => none
  | .watch _ _ _ => none

end Identity
end Scouter
