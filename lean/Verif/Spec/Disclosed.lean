import Verif.Model.Disclosed
import Verif.Spec.Recording
/-!
# Vocabulary for what is recorded of requests while the configuration is loaded again and again
-/
namespace Scouter
namespace Disclosed
open Identity (Ref Heap)
open Trace

/-- One configuration: whether queries and headers are recorded, which headers are named, and the header with the client's address. -/
structure Version where
  query : Bool
  enabled : Bool
  keys : Ref
  ip : Ref
deriving DecidableEq, Repr

/-- The configuration a load makes. -/
def Reload.version (r : Reload) : Version := ⟨r.query, r.enabled, r.keys, r.ip⟩

/-- The configurations there are in the course of time: the first, and what each load makes. -/
def versions (v : Version) (rs : List Reload) : List Version := v :: rs.map Reload.version

/-- The words when the configuration is `v`. -/
def Version.words (v : Version) : Mem
  | .query => if v.query then 1 else 0
  | .enabled => if v.enabled then 1 else 0
  | .keysPtr => v.keys.ptr
  | .keysLen => v.keys.len
  | .ipPtr => v.ip.ptr
  | .ipLen => v.ip.len

/-- The agent with configuration `v`, which is going to be loaded again as in `rs`; no request has been begun. -/
def agent (v : Version) (rs : List Reload) : State := { mem := v.words, next := rs }

/-- How many loads have begun. -/
def State.begun (s : State) : Nat := if s.now = [] then s.complete else s.complete + 1

/-- The options of a service, otherwise as in `c`, when the configuration is `v`. -/
def Version.conf (h : Heap) (c : TraceConf) (v : Version) : TraceConf :=
  { c with queryEnabled := v.query, headerEnabled := v.enabled, headerKeys := h.text v.keys, ipHeaderKey := h.text v.ip }

/-- A line for each header of the request. -/
def allHeaders (r : Request) : List Bytes := r.headers.map fun x => headerLine x.1 x.2

/-- A line for each header named in `keys` the request has. -/
def listed (keys : Bytes) (r : Request) : List Bytes :=
  ((splitByte 44 keys).filter fun k => r.values (trimmed k) ≠ []).map fun k => headerLine k (r.values (trimmed k))

/-- The line for the query, if there is to be one. -/
def queryLine (q : Bool) (r : Request) : List Bytes := if q then [ascii "query: " ++ r.rawQuery] else []

/-- `v` is configuration number `i` of `vs`, one of those from `lo` to `hi`. -/
def Among (vs : List Version) (lo hi i : Nat) (v : Version) : Prop := vs[i]? = some v ∧ lo ≤ i ∧ i ≤ hi

/-- What may be recorded of a request begun and dealt with while the configurations are those from `lo` to `hi`: as configuration `i` says whether
   headers are recorded and `q` whether the query is; whether only those named are, as `j` says, and then those named in the text at the place of
   `a`'s list of the length of `b`'s; none of these lists is that of a configuration more than one before `i`. -/
def MayRecord (h : Heap) (vs : List Version) (lo hi : Nat) (r : Request) (lines : List Bytes) : Prop :=
  ∃ i ei j ej a ea b eb q eq, Among vs lo hi i ei ∧ Among vs lo hi j ej ∧ Among vs lo hi a ea ∧ Among vs lo hi b eb ∧ Among vs lo hi q eq ∧
    i ≤ j + 1 ∧ i ≤ a + 1 ∧ i ≤ b + 1 ∧
    lines = (if ei.enabled then if h.text ej.keys = [] then allHeaders r else listed (h.text ⟨ea.keys.ptr, eb.keys.len⟩) r else []) ++
      queryLine eq.query r

/-- What may be taken for the client's address meanwhile: the connection's, or the value of the header whose name is at the place of `a`'s, of the
   length of `b`'s, if `i` names one. -/
def MayCome (h : Heap) (vs : List Version) (lo hi : Nat) (r : Request) (address : Bytes) : Prop :=
  ∃ i ei a ea b eb, Among vs lo hi i ei ∧ Among vs lo hi a ea ∧ Among vs lo hi b eb ∧
    let value := r.header (h.text ⟨ea.ip.ptr, eb.ip.len⟩)
    address = if h.text ei.ip = [] ∨ value = [] then r.remoteAddr else value

end Disclosed
end Scouter
