import Verif.Model.Value
import Verif.Spec.Wire
/-!
# Value trees: what is expected to survive a round trip (C05), and what a tree denotes for the collector
-/
namespace Scouter.Spec
open Wire (shown WV)

/-- Update of an association list: replace the value of a key, or append a new entry. -/
def assign {α : Type} (m : List (Bytes × α)) (k : Bytes) (v : α) : List (Bytes × α) :=
  if k ∈ m.map Prod.fst then m.map (fun e => if e.1 = k then (k, v) else e) else m ++ [(k, v)]

/-- A list of assignments performed in order: for every key the last value wins. -/
def lastWins {α : Type} (es : List (Bytes × α)) : List (Bytes × α) :=
  es.foldl (fun m e => assign m e.1 e.2) []

mutual
/-- The tree a reader gets: nil becomes the null value, over-long texts (and map keys) become the marker; entries
whose keys become equal collapse, the last one winning. -/
def received : Value → Value
  | .goNil => .null
  | .null => .null
  | .bool b => .bool b
  | .dec v => .dec v
  | .float v => .float v
  | .double v => .double v
  | .text s => .text (shown s)
  | .textHash v => .textHash v
  | .blob b => .blob b
  | .ip4 b => .ip4 b
  | .list vs => .list (receivedL vs)
  | .map es => .map (lastWins (receivedM es))
def receivedL : List Value → List Value
  | [] => []
  | v :: vs => received v :: receivedL vs
def receivedM : List (Bytes × Value) → List (Bytes × Value)
  | [] => []
  | (k, v) :: es => (shown k, received v) :: receivedM es
end

/-- A byte-string length the agent's own reader can handle: below 2^31 and not in the window 32768..65535 where the
two-byte length is read as a negative number. -/
def ReadableLen (n : Nat) : Prop := n < 2 ^ 31 ∧ ¬ (32768 ≤ n ∧ n ≤ 65535)

mutual
/-- Trees the round trip is claimed for: no IPv4 values, readable text and blob lengths, fewer than 2^63 children
(always true of Go slices and maps). -/
def Readable : Value → Prop
  | .text s => ReadableLen (shown s).length
  | .blob b => ReadableLen b.length
  | .ip4 _ => False
  | .list vs => vs.length < 2 ^ 63 ∧ ReadableL vs
  | .map es => es.length < 2 ^ 63 ∧ ReadableM es
  | _ => True
def ReadableL : List Value → Prop
  | [] => True
  | v :: vs => Readable v ∧ ReadableL vs
def ReadableM : List (Bytes × Value) → Prop
  | [] => True
  | (k, v) :: es => ReadableLen (shown k).length ∧ Readable v ∧ ReadableM es
end

mutual
/-- Trees that contain no nil, no text or key longer than 100000 bytes, and no repeated map key: these are expected
back unchanged. -/
def Plain : Value → Prop
  | .goNil => False
  | .text s => s.length ≤ 100000
  | .list vs => PlainL vs
  | .map es => (es.map Prod.fst).Nodup ∧ PlainM es
  | _ => True
def PlainL : List Value → Prop
  | [] => True
  | v :: vs => Plain v ∧ PlainL vs
def PlainM : List (Bytes × Value) → Prop
  | [] => True
  | (k, v) :: es => k.length ≤ 100000 ∧ Plain v ∧ PlainM es
end

mutual
/-- What a tree denotes for the collector. -/
def denote : Value → WV
  | .goNil => .null
  | .null => .null
  | .bool b => .bool b
  | .dec v => .num v.toInt
  | .float v => .float v.toNat
  | .double v => .double v.toNat
  | .text s => .text (shown s)
  | .textHash v => .hash v.toInt
  | .blob b => .blob b
  | .ip4 b => .ip b
  | .list vs => .list (denoteL vs)
  | .map es => .map (denoteM es)
def denoteL : List Value → List WV
  | [] => []
  | v :: vs => denote v :: denoteL vs
def denoteM : List (Bytes × Value) → List (Bytes × WV)
  | [] => []
  | (k, v) :: es => (shown k, denote v) :: denoteM es
end

mutual
/-- Trees whose wire form is within the format's limits: blobs below 2^31 bytes, IPv4 values of four bytes, fewer
than 2^63 children. -/
def Sendable : Value → Prop
  | .blob b => b.length < 2 ^ 31
  | .ip4 b => b.length = 4
  | .list vs => vs.length < 2 ^ 63 ∧ SendableL vs
  | .map es => es.length < 2 ^ 63 ∧ SendableM es
  | _ => True
def SendableL : List Value → Prop
  | [] => True
  | v :: vs => Sendable v ∧ SendableL vs
def SendableM : List (Bytes × Value) → Prop
  | [] => True
  | (_, v) :: es => Sendable v ∧ SendableM es
end

end Scouter.Spec
