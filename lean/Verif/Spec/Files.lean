import Verif.Model.Dump
/-!
# Vocabulary for files and paths
-/
namespace Scouter
namespace Dump

/-- An ordinary path element: not empty, not "." or "..", without a slash. -/
def Ordinary (e : Bytes) : Prop := e ≠ [] ∧ e ≠ ascii "." ∧ e ≠ ascii ".." ∧ (47 : Byte) ∉ e

/-- A path all of whose elements are ordinary. -/
def Path.Good (p : Path) : Prop := ∀ e ∈ p.parts, Ordinary e

/-- `p` is the directory `dir` itself or something inside it. -/
def Inside (dir p : Path) : Prop := p.rooted = dir.rooted ∧ ∃ x, p.parts = dir.parts ++ x

/-- A requested name none of whose elements is "..". -/
def NoDotDot (name : Bytes) : Prop := ascii ".." ∉ splitByte 47 name

/-- One step on the way a name describes, from a directory of an absolute path: an empty element or "." stays, ".." goes up one directory (and
stays at the root), anything else goes down. -/
def stepFrom (here : List Bytes) (e : Bytes) : List Bytes :=
  if e = [] ∨ e = ascii "." then here else if e = ascii ".." then here.dropLast else here ++ [e]

/-- `fs` has a file with this content at `p`. -/
def FileAt (fs : FS) (p : Path) (content : Bytes) : Prop := fs.at p = some (.file content)

/-- The file only grows: at each reading it begins with what it held before. -/
def Growing (f : Nat → Bytes) : Prop := ∀ i j, i ≤ j → f i <+: f j

end Dump
end Scouter
