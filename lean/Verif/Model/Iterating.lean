import Verif.Model.Lra
/-!
# `GetValues` while the cache is being changed (scouterx/common/structure/lra/lra.go:121-136)

`GetValues` gives the read lock back around every entry, so other goroutines add, remove and clear in between.  The loop is
`range` over a Go map that is being changed: what was removed before it was reached is not produced, what was added may or may not be
produced, everything else is produced once (Go language specification, "For statements with range clause").  `Clear` makes a new map:
a loop that is under way goes on over the old one, which nobody changes any more.  The writing calls are the atomic operations of
`Verif.Model.Lra`.
-/
namespace Scouter
namespace Iterating
variable {K V : Type} [DecidableEq K]

/-- Where a goroutine is in `GetValues`.  lra.go:121-136. -/
inductive Pc where
  /-- before `lock.RLock()`, lra.go:123 -/
  | before
  /-- holding the read lock at the head of the loop, lra.go:125 -/
  | held
  /-- after `lock.RUnlock()` with the element in hand, lra.go:126-128 -/
  | hand (id : Nat)
  /-- before `lock.RLock()` at the end of the body, lra.go:133 -/
  | relock
  /-- returned, lra.go:135 -/
  | done
deriving DecidableEq, Repr

/-- A goroutine in `GetValues`.  `must` are the entries that were there at the beginning, have not been removed and have not been produced;
`seen` those produced; `cleared` is the map it goes on with if `Clear` replaced the cache's.  `out` is the slice to return, each value with
the key of its entry (the key is for the specification only).  Go language (range over a map); lra.go:121-136. -/
structure Iter (K V : Type) where
  pc : Pc := .before
  must : List Nat := []
  seen : List Nat := []
  cleared : Option (List (K × Nat)) := none
  out : List (K × V) := []

/-- The cache, the elements that are no longer in it (still referred to by loops), and the goroutines in `GetValues`.
   lra.go:11-17. -/
structure State (K V : Type) where
  cache : Cache K V
  old : List (Elem K V) := []
  iters : List (Iter K V) := []

/-- A writing call.  `Add` lra.go:38-50, `Remove` :78-84, `Clear` :108-119. -/
inductive Write (K V : Type) where
  | add (k : K) (v : Option V)
  | remove (k : K)
  | clear (o : MapOrder (K × Nat))

/-- The cache after a writing call.  lra.go:38-50, 78-84, 108-119. -/
def Write.on (c : Cache K V) : Write K V → Cache K V
  | .add k v => c.add k v
  | .remove k => c.remove k
  | .clear o => c.clear o

/-- What a writing call means for a loop under way: `Clear` leaves it the old map; otherwise entries that are gone are no longer to be
produced.  Go language (range over a map); lra.go:118, 125. -/
def Iter.noticed (it : Iter K V) (w : Write K V) (before after : Cache K V) : Iter K V :=
  match it.cleared, w with
  | some _, _ => it
  | none, .clear _ => { it with cleared := some before.table }
  | none, _ => { it with must := it.must.filter fun id => id ∈ after.table.map (·.2) }

/-- The map the loop goes over.  lra.go:125. -/
def State.ranged (s : State K V) (it : Iter K V) : List (K × Nat) := it.cleared.getD s.cache.table

/-- The element behind a pointer.  Go language; lra.go:128. -/
def State.deref (s : State K V) (id : Nat) : Option (Elem K V) := (s.cache.lst ++ s.old).find? fun e => e.id = id

/-- What can happen next: a writing call of some goroutine (as a whole, it holds the lock), or a step of the `i`-th goroutine in `GetValues`:
taking the lock, getting the next element (the map decides which), reading its value, taking the lock again, leaving the loop.
   lra.go:121-136. -/
inductive Event (K V : Type) where
  | write (w : Write K V)
  | begin (i : Nat)
  | next (i : Nat) (id : Nat)
  | read (i : Nat)
  | lock (i : Nat)
  | finish (i : Nat)

/-- The step of one goroutine in `GetValues`; `none` if it cannot be taken now.  lra.go:123-135. -/
def State.move (s : State K V) (it : Iter K V) : Event K V → Option (Iter K V)
  | .begin _ => if it.pc = .before then some { it with pc := .held, must := s.cache.table.map (·.2) } else none
  | .next _ id =>
    if it.pc = .held ∧ id ∈ (s.ranged it).map (·.2) ∧ id ∉ it.seen then
      some { it with pc := .hand id, must := it.must.filter (· ≠ id), seen := id :: it.seen }
    else none
  | .read _ =>
    match it.pc with
    | .hand id =>
      match s.deref id with
      | some e =>
        match e.value with
        | some v => some { it with pc := .relock, out := it.out ++ [(e.key, v)] }
        | none => some { it with pc := .relock }
      | none => none
    | _ => none
  | .lock _ => if it.pc = .relock then some { it with pc := .held } else none
  | .finish _ => if it.pc = .held ∧ it.must = [] then some { it with pc := .done } else none
  | .write _ => none

/-- Whose step it is.  Model only: lra.go:121-136. -/
def Event.who : Event K V → Option Nat
  | .begin i | .next i _ | .read i | .lock i | .finish i => some i
  | .write _ => none

/-- One event; an event that cannot happen now changes nothing.  A writing call needs that nobody holds the read lock.
   lra.go:38-50, 78-84, 108-136. -/
def State.fire (s : State K V) (e : Event K V) : State K V :=
  match e with
  | .write w =>
    if s.iters.all (fun it => it.pc ≠ .held) then
      let c' := w.on s.cache
      { cache := c'
        old := s.old ++ s.cache.lst.filter (fun x => x.id ∉ c'.lst.map (·.id))
        iters := s.iters.map fun it => if it.pc = .before ∨ it.pc = .done then it else it.noticed w s.cache c' }
    else s
  | e =>
    match e.who with
    | none => s
    | some i =>
      match s.iters[i]? with
      | some it =>
        match s.move it e with
        | some it' => { s with iters := s.iters.set i it' }
        | none => s
      | none => s

/-- A history.  Model only: goroutines in lra.go:34-136. -/
def State.run (s : State K V) (es : List (Event K V)) : State K V := es.foldl State.fire s

/-- An empty cache and `n` goroutines that are going to call `GetValues`.  lra.go:26-32. -/
def State.start (max : Int) (n : Nat) : State K V := { cache := Cache.new max false, iters := List.replicate n {} }

end Iterating
end Scouter
