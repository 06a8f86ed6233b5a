import Verif.Model.Lra
/-!
# Specification of a bounded insertion-ordered map

Independent of the cache's own representation: one list of (key, value) pairs, oldest insertion first.
(Only the call and answer types are shared with the model.)
-/
namespace Scouter.Spec

/-- The abstract state: a bound (0: unbounded), the entries oldest first, and the entries that have left, in order. -/
structure OMap (K V : Type) where
  bound : Int
  entries : List (K × Option V) := []
  departed : List (K × Option V) := []

namespace OMap
variable {K V : Type} [DecidableEq K]

/-- The value stored for a key. -/
def find (m : OMap K V) (k : K) : Option (Option V) := m.entries.lookup k

/-- A present key gets the new value in place.  A new key goes to the young end; if that exceeds a non-zero bound the
oldest entry leaves. -/
def add (m : OMap K V) (k : K) (v : Option V) : OMap K V :=
  if k ∈ m.entries.map (·.1) then
    { m with entries := m.entries.map (fun p => if p.1 = k then (k, v) else p) }
  else
    let es := m.entries ++ [(k, v)]
    if m.bound ≠ 0 ∧ (es.length : Int) > m.bound then
      { m with entries := es.tail, departed := m.departed ++ es.take 1 }
    else { m with entries := es }

/-- The entry of a key leaves. -/
def remove (m : OMap K V) (k : K) : OMap K V :=
  { m with
    entries := m.entries.filter (fun p => p.1 ≠ k)
    departed := m.departed ++ m.entries.filter (fun p => p.1 = k) }

/-- All entries leave. -/
def clear (m : OMap K V) : OMap K V :=
  { m with entries := [], departed := m.departed ++ m.entries }

/-- One call and its answer. -/
def step (m : OMap K V) : LraOp K V → OMap K V × LraOut V
  | .add k v => (m.add k v, .unit)
  | .get k => (m, .value ((m.find k).getD none))
  | .contains k => (m, .bool (m.find k).isSome)
  | .empty => (m, .bool (m.entries.length == 0))
  | .remove k => (m.remove k, .unit)
  | .size => (m, .int m.entries.length)
  | .clear _ => (m.clear, .unit)
  | .values _ => (m, .list (m.entries.filterMap (·.2)))

def run (m : OMap K V) : List (LraOp K V) → OMap K V × List (LraOut V)
  | [] => (m, [])
  | op :: ops =>
    let (m1, o) := m.step op
    let (m2, os) := m1.run ops
    (m2, o :: os)

end OMap

/-- Two answers agree: equal, or lists of the same values in some order. -/
inductive SameOut {V : Type} : LraOut V → LraOut V → Prop
  | eq (o : LraOut V) : SameOut o o
  | list {l l' : List V} : l.Perm l' → SameOut (.list l) (.list l')

/-- Pairwise agreement of answer sequences. -/
inductive SameOuts {V : Type} : List (LraOut V) → List (LraOut V) → Prop
  | nil : SameOuts [] []
  | cons {o o' : LraOut V} {os os' : List (LraOut V)} : SameOut o o' → SameOuts os os' → SameOuts (o :: os) (o' :: os')

end Scouter.Spec
