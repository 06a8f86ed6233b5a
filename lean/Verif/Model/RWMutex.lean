/-!
# The package lock of the lra cache (lra.go:8) and the lock actions of its operations

`sync.RWMutex` is modelled from its documentation: a read lock is not granted while a writer holds the lock or waits
for it; a writer first announces itself (one at a time) and then waits for the active readers to leave.  Every other
instruction of the operations is local and is left out.
-/
namespace Scouter

/-- Lock actions: `RLock`, `RUnlock`, the two halves of `Lock` (announce, acquire), `Unlock`.
   Library sync; lra.go:38-135. -/
inductive LockAct where
  | rlock | runlock | announce | acquire | unlock
deriving DecidableEq, Repr

/-- Calls on a cache, as far as locking goes.  lra.go:34-136. -/
inductive LockCall where
  | add | get | contains | empty | remove | size | clear
  /-- `GetValues` over a table with `n` entries -/
  | values (n : Nat)
deriving DecidableEq, Repr

/-- The lock actions of each operation: `Add` lra.go:39-40, `Get` :54-55, `Contains` :63-64, `Empty` :72-74 (it calls
`Size`, :103-104, while holding the read lock), `Remove` :79-80, `Clear` :109-110, `GetValues` :123-134 (unlock and
lock again around each entry).  No `OnEvicted` callback is set in this repository; a callback that used the cache would
run under the write lock. -/
def LockCall.acts : LockCall → List LockAct
  | .add | .remove | .clear => [.announce, .acquire, .unlock]
  | .get | .contains | .size => [.rlock, .runlock]
  | .empty => [.rlock, .rlock, .runlock, .runlock]
  | .values n => .rlock :: (List.replicate n [LockAct.runlock, .rlock]).flatten ++ [.runlock]

/-- The lock and the remaining actions of every goroutine.  `writer` is the goroutine that announced itself or (flag)
holds the write lock.  Library sync; lra.go:11-17. -/
structure LockState where
  readers : Nat := 0
  writer : Option (Nat × Bool) := none
  threads : List (List LockAct)
deriving DecidableEq, Repr

/-- The next action of goroutine `i`, if it can be taken now (sync.RWMutex; one package lock for all caches, lra.go:8). -/
def LockState.step (s : LockState) (i : Nat) : Option LockState :=
  match s.threads[i]? with
  | some (a :: rest) =>
    let threads := s.threads.set i rest
    match a with
    | .rlock => if s.writer = none then some { s with readers := s.readers + 1, threads } else none
    | .runlock => if 0 < s.readers then some { s with readers := s.readers - 1, threads } else none
    | .announce => if s.writer = none then some { s with writer := some (i, false), threads } else none
    | .acquire =>
      if s.writer = some (i, false) ∧ s.readers = 0 then some { s with writer := some (i, true), threads } else none
    | .unlock => if s.writer = some (i, true) then some { s with writer := none, threads } else none
  | _ => none

/-- The state before anything ran, each goroutine with its list of calls.  lra.go:26-32. -/
def LockState.init (calls : List (List LockCall)) : LockState :=
  { threads := calls.map (fun cs => (cs.map LockCall.acts).flatten) }

/-- Running a schedule (which goroutine moves next); `none` if some chosen goroutine could not move.
   Model only: the Go scheduler running goroutines in lra.go:34-136. -/
def LockState.exec (s : LockState) : List Nat → Option LockState
  | [] => some s
  | i :: is => (s.step i).bind (fun s' => s'.exec is)

end Scouter
