/-!
# The bounded cache (scouterx/common/structure/lra/lra.go)

Keys are any type with decidable equality; a value is `Option V`, `none` being Go's nil interface.  The linked list and
the index are modelled separately, connected by element identities as in the code (the index holds element pointers).
Each operation is one atomic step here (every operation holds the package lock); locking itself is modelled in
`Verif.Model.RWMutex`.
-/
namespace Scouter

/-- A `*list.Element` holding an `*entry` (lra.go:21-24); `id` is the pointer. -/
structure Elem (K V : Type) where
  id : Nat
  key : K
  value : Option V
deriving DecidableEq, Repr

/-- `Cache`, lra.go:11-17.  `lst` is front first.  `hasCb` says whether `OnEvicted` is set and `evicted` is the log of
its calls (oldest first).  `next` is the next fresh pointer. -/
structure Cache (K V : Type) where
  max : Int
  hasCb : Bool := false
  lst : List (Elem K V) := []
  table : List (K × Nat) := []
  next : Nat := 0
  evicted : List (K × Option V) := []
deriving Repr

/-- Some iteration order of a Go map: any rearrangement of its entries.
   Go language (range over a map); lra.go:121-135. -/
structure MapOrder (α : Type) where
  order : List α → List α
  perm : ∀ l, (order l).Perm l

namespace Cache
variable {K V : Type} [DecidableEq K]

/-- `New`, lra.go:26-32, with `OnEvicted` set afterwards or not. -/
def new (max : Int) (hasCb : Bool) : Cache K V := { max := max, hasCb := hasCb }

/-- `c.OnEvicted(k, v)` if set, lra.go:97-99. -/
def callback (c : Cache K V) (k : K) (v : Option V) : Cache K V :=
  if c.hasCb then { c with evicted := c.evicted ++ [(k, v)] } else c

/-- `removeElement`, lra.go:93-100. -/
def removeElement (c : Cache K V) (e : Elem K V) : Cache K V :=
  callback { c with
    lst := c.lst.filter (fun x => x.id ≠ e.id)
    table := c.table.filter (fun p => p.1 ≠ e.key) } e.key e.value

/-- `removeOldest`, lra.go:86-91. -/
def removeOldest (c : Cache K V) : Cache K V :=
  match c.lst.getLast? with
  | some e => c.removeElement e
  | none => c

/-- `Add`, lra.go:38-50. -/
def add (c : Cache K V) (k : K) (v : Option V) : Cache K V :=
  match c.table.lookup k with
  | some id => { c with lst := c.lst.map (fun e => if e.id = id then { e with value := v } else e) }
  | none =>
    let c1 : Cache K V := { c with
      lst := { id := c.next, key := k, value := v } :: c.lst
      table := c.table ++ [(k, c.next)]
      next := c.next + 1 }
    if c1.max ≠ 0 ∧ (c1.lst.length : Int) > c1.max then c1.removeOldest else c1

/-- The element a pointer of the index leads to.  Go language (pointer `*list.Element`); lra.go:38-100. -/
def deref (c : Cache K V) (id : Nat) : Option (Elem K V) := c.lst.find? (fun e => e.id = id)

/-- `Get`, lra.go:53-60. -/
def get (c : Cache K V) (k : K) : Option V :=
  match c.table.lookup k with
  | some id => (c.deref id).bind (·.value)
  | none => none

/-- `Contains`, lra.go:62-69. -/
def contains (c : Cache K V) (k : K) : Bool := (c.table.lookup k).isSome

/-- `Size`, lra.go:102-106. -/
def size (c : Cache K V) : Nat := c.lst.length

/-- `Empty`, lra.go:71-75. -/
def isEmpty (c : Cache K V) : Bool := c.size = 0

/-- `Remove`, lra.go:78-84. -/
def remove (c : Cache K V) (k : K) : Cache K V :=
  match c.table.lookup k with
  | some id =>
    match c.deref id with
    | some e => c.removeElement e
    | none => c
  | none => c

/-- `Clear`, lra.go:108-119; the callbacks run in map order. -/
def clear (c : Cache K V) (o : MapOrder (K × Nat)) : Cache K V :=
  let log := ((o.order c.table).filterMap (fun p => c.deref p.2)).map (fun e => (e.key, e.value))
  { c with
    lst := [], table := []
    evicted := if c.hasCb then c.evicted ++ log else c.evicted }

/-- `GetValues`, lra.go:121-136, without concurrent changes: the non-nil values in map order. -/
def getValues (c : Cache K V) (o : MapOrder (K × Nat)) : List V :=
  (o.order c.table).filterMap (fun p => (c.deref p.2).bind (·.value))

end Cache

/-- A call on the cache; `AddKey k` (lra.go:34-36) is `add` with the marker value. -/
inductive LraOp (K V : Type) where
  | add (k : K) (v : Option V)
  | get (k : K)
  | contains (k : K)
  | empty
  | remove (k : K)
  | size
  | clear (o : MapOrder (K × Nat))
  | values (o : MapOrder (K × Nat))

/-- What a call returns.  lra.go:34-136. -/
inductive LraOut (V : Type) where
  | unit
  | value (v : Option V)
  | bool (b : Bool)
  | int (n : Nat)
  | list (l : List V)
deriving DecidableEq, Repr

namespace Cache
variable {K V : Type} [DecidableEq K]

/-- One call.  lra.go:34-136. -/
def step (c : Cache K V) : LraOp K V → Cache K V × LraOut V
  | .add k v => (c.add k v, .unit)
  | .get k => (c, .value (c.get k))
  | .contains k => (c, .bool (c.contains k))
  | .empty => (c, .bool c.isEmpty)
  | .remove k => (c.remove k, .unit)
  | .size => (c, .int c.size)
  | .clear o => (c.clear o, .unit)
  | .values o => (c, .list (c.getValues o))

/-- A sequence of calls: the final cache and what each call returned.
   Model only: histories of calls of lra.go:34-136. -/
def run (c : Cache K V) : List (LraOp K V) → Cache K V × List (LraOut V)
  | [] => (c, [])
  | op :: ops =>
    let (c1, o) := c.step op
    let (c2, os) := c1.run ops
    (c2, o :: os)

end Cache
end Scouter
