import Verif.Model.Base
/-!
# The linked caches (cachemap.go, cacheset.go) and the second cache map (cachemap2.go)

`linkedhashmap`/`linkedhashset` (github.com/emirpasic/gods v1.12.0, not in /repo) are modelled from their documentation
as lists in insertion order; their iterators panic (nil dereference) when `Key`/`Value` is called past the end.
Values are `Option V`, `none` being nil.  Every operation is atomic (package lock).
-/
namespace Scouter

/-- `CacheMap`, cachemap.go:11-14: entries oldest first. -/
structure CacheMap (K V : Type) where
  max : Int
  items : List (K × Option V) := []
deriving DecidableEq, Repr

namespace CacheMap
variable {K V : Type} [DecidableEq K]

/-- `New`, cachemap.go:30-36. -/
def new (max : Int) : CacheMap K V := { max := max }

/-- `m.table.Remove(key)` of the linked map (called at cachemap.go:50,66). -/
def tableRemove (m : CacheMap K V) (k : K) : CacheMap K V := { m with items := m.items.filter (fun p => p.1 ≠ k) }

/-- The collecting loop of `removeExceeded`, cachemap.go:61-64: `n` calls of `Next` and `Key` on an iterator with
`rest` ahead of it. -/
def collect : Nat → List (K × Option V) → Go (List K)
  | 0, _ => .ok []
  | _ + 1, [] => .panic
  | n + 1, p :: rest => do
    let ks ← collect n rest
    .ok (p.1 :: ks)

/-- `removeExceeded`, cachemap.go:53-68: the loop runs for `i` from `removalCount` down to 0. -/
def removeExceeded (m : CacheMap K V) : Go (CacheMap K V) :=
  let removalCount : Int := m.items.length - m.max
  if removalCount < 0 then .ok m
  else do
    let removals ← collect (removalCount.toNat + 1) m.items
    .ok (removals.foldl tableRemove m)

/-- `Add`, cachemap.go:38-45. -/
def add (m : CacheMap K V) (k : K) (v : Option V) : Go (CacheMap K V) :=
  match m.items.lookup k with
  | some _ => .ok m
  | none => do
    let m1 ← m.removeExceeded
    .ok { m1 with items := m1.items ++ [(k, v)] }

/-- `Remove`, cachemap.go:47-51. -/
def remove (m : CacheMap K V) (k : K) : CacheMap K V := m.tableRemove k

/-- `Contains`, cachemap.go:70-77. -/
def contains (m : CacheMap K V) (k : K) : Bool := (m.items.lookup k).isSome

/-- `Get`, cachemap.go:79-88. -/
def get (m : CacheMap K V) (k : K) : Option V := (m.items.lookup k).getD none

/-- `Size`, cachemap.go:96-98 (`Empty`, :90-94, is `Size() == 0`). -/
def size (m : CacheMap K V) : Nat := m.items.length

/-- `Clear`, cachemap.go:100-104. -/
def clear (m : CacheMap K V) : CacheMap K V := { m with items := [] }

/-- `GetValues`, cachemap.go:16-28: non-nil values, oldest first. -/
def getValues (m : CacheMap K V) : List V := m.items.filterMap (·.2)

/-- The calls that may change the cache.  cachemap.go:38-51, 100-104. -/
inductive Op (K V : Type) where
  | add (k : K) (v : Option V)
  | remove (k : K)
  | clear

/-- One changing call.  cachemap.go:38-51, 100-104. -/
def step (m : CacheMap K V) : Op K V → Go (CacheMap K V)
  | .add k v => m.add k v
  | .remove k => .ok (m.remove k)
  | .clear => .ok m.clear

/-- A sequence of changing calls (stopping at a panic).  Model only: histories of cachemap.go:38-104. -/
def run (m : CacheMap K V) : List (Op K V) → Go (CacheMap K V)
  | [] => .ok m
  | op :: ops => do
    let m1 ← m.step op
    m1.run ops

end CacheMap

/-- `CacheSet`, cacheset.go:11-14: items oldest first. -/
structure CacheSet (K : Type) where
  max : Int
  items : List K := []
deriving DecidableEq, Repr

namespace CacheSet
variable {K : Type} [DecidableEq K]

/-- `New`, cacheset.go:18-24. -/
def new (max : Int) : CacheSet K := { max := max }

/-- The collecting loop of `removeExceeded`, cacheset.go:43-46. -/
def collect : Nat → List K → Go (List K)
  | 0, _ => .ok []
  | _ + 1, [] => .panic
  | n + 1, k :: rest => do
    let ks ← collect n rest
    .ok (k :: ks)

/-- `removeExceeded`, cacheset.go:35-50. -/
def removeExceeded (m : CacheSet K) : Go (CacheSet K) :=
  let removalCount : Int := m.items.length - m.max
  if removalCount < 0 then .ok m
  else do
    let removals ← collect (removalCount.toNat + 1) m.items
    .ok { m with items := removals.foldl (fun l k => l.filter (fun x => x ≠ k)) m.items }

/-- `Add`, cacheset.go:26-33. -/
def add (m : CacheSet K) (k : K) : Go (CacheSet K) :=
  if k ∈ m.items then .ok m
  else do
    let m1 ← m.removeExceeded
    .ok { m1 with items := m1.items ++ [k] }

/-- `Contains`, cacheset.go:52-56. -/
def contains (m : CacheSet K) (k : K) : Bool := k ∈ m.items

/-- `Size`, cacheset.go:64-66 (`Empty`, :58-62). -/
def size (m : CacheSet K) : Nat := m.items.length

/-- `Clear`, cacheset.go:68-72. -/
def clear (m : CacheSet K) : CacheSet K := { m with items := [] }

/-- The calls that may change the set: cacheset.go:26-33, 68-72. -/
inductive Op (K : Type) where
  | add (k : K)
  | clear

/-- One changing call: cacheset.go:26-33, 68-72. -/
def step (m : CacheSet K) : Op K → Go (CacheSet K)
  | .add k => m.add k
  | .clear => .ok m.clear

/-- Model only: a sequence of changing calls of cacheset.go:26-72. -/
def run (m : CacheSet K) : List (Op K) → Go (CacheSet K)
  | [] => .ok m
  | op :: ops => do
    let m1 ← m.step op
    m1.run ops

end CacheSet

/-- `cachemap2.CacheMap`, cachemap2.go:13-18.  `orderPos` is written but never read and is left out; the background
goroutine started by `New` (cachemap2.go:41-53) only sleeps. -/
structure CacheMap2 (K V : Type) where
  max : Int
  table : List (K × Option V) := []
  ordering : List K := []
deriving DecidableEq, Repr

namespace CacheMap2
variable {K V : Type} [DecidableEq K]

/-- `New`, cachemap2.go:34-55. -/
def new (max : Int) : CacheMap2 K V := { max := max }

/-- `removeExceeded`, cachemap2.go:79-88, with at most `fuel` rounds of the loop. -/
def removeExceeded : Nat → CacheMap2 K V → Go (CacheMap2 K V)
  | 0, _ => .fuel
  | fuel + 1, m =>
    if (m.ordering.length : Int) ≥ m.max then
      match m.ordering with
      | [] => removeExceeded fuel m
      | k :: rest => removeExceeded fuel { m with ordering := rest, table := m.table.filter (fun p => p.1 ≠ k) }
    else .ok m

/-- `Add`, cachemap2.go:57-66. -/
def add (fuel : Nat) (m : CacheMap2 K V) (k : K) (v : Option V) : Go (CacheMap2 K V) :=
  match m.table.lookup k with
  | some _ => .ok m
  | none => do
    let m1 ← removeExceeded fuel m
    .ok { m1 with table := m1.table ++ [(k, v)], ordering := m1.ordering ++ [k] }

/-- `Remove`, cachemap2.go:68-77: the key stays in `ordering`. -/
def remove (m : CacheMap2 K V) (k : K) : CacheMap2 K V := { m with table := m.table.filter (fun p => p.1 ≠ k) }

/-- `Contains`, cachemap2.go:90-97. -/
def contains (m : CacheMap2 K V) (k : K) : Bool := (m.table.lookup k).isSome

/-- `Get`, cachemap2.go:99-103. -/
def get (m : CacheMap2 K V) (k : K) : Option V := (m.table.lookup k).getD none

/-- `Size`, cachemap2.go:111-113 (`Empty`, :105-109, is `Size() == 0`). -/
def size (m : CacheMap2 K V) : Nat := m.ordering.length

/-- `Clear`, cachemap2.go:115-121. -/
def clear (m : CacheMap2 K V) : CacheMap2 K V := { m with table := [], ordering := [] }

/-- One changing call: cachemap2.go:57-77, 115-121. -/
def step (fuel : Nat) (m : CacheMap2 K V) : CacheMap.Op K V → Go (CacheMap2 K V)
  | .add k v => m.add fuel k v
  | .remove k => .ok (m.remove k)
  | .clear => .ok m.clear

/-- Model only: a sequence of changing calls of cachemap2.go:57-121. -/
def run (fuel : Nat) (m : CacheMap2 K V) : List (CacheMap.Op K V) → Go (CacheMap2 K V)
  | [] => .ok m
  | op :: ops => do
    let m1 ← m.step fuel op
    m1.run fuel ops

end CacheMap2
end Scouter
