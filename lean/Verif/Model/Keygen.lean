import Verif.Model.Base
/-!
# The generator of ids (scouterx/common/util/keygen/keygen.go), used by several goroutines

The pseudo-random source of `math/rand` is any deterministic machine: a state made from the seed and a step giving 64 bits and the next state.
Drawing is two accesses to that state (it is read, then replaced), between `Lock` and `Unlock`.
-/
namespace Scouter
namespace Keygen

/-- `rand.Source` of library math/rand: `NewSource(seed)` and `Uint64()`.  keygen.go:15-18, 25. -/
structure Source where
  S : Type
  seed : BitVec 64 → S
  bits : S → BitVec 64
  next : S → S

/-- `Int63`: the lower 63 bits (library math/rand).  keygen.go:34. -/
def int63 (src : Source) (s : src.S) : BitVec 64 := src.bits s &&& 0x7fffffffffffffff#64

/-- Where a goroutine is in `Next`, keygen.go:32-37: not in it, waiting for the lock, in the critical section, having read the source (`Int63` under way),
having replaced its state, and about to return after the unlock. -/
inductive At (src : Source) where
  | out
  | waiting
  | inside
  | computed (s : src.S)
  | drawn (key : BitVec 64)
  | unlocked (key : BitVec 64)

/-- A goroutine: where it is, how many more calls it will make and what its calls returned.  keygen.go:32-37. -/
structure Caller (src : Source) where
  at_ : At src := .out
  left : Nat
  got : List (BitVec 64) := []

/-- The generator: its lock and the source's state.  keygen.go:15-18. -/
structure State (src : Source) where
  locked : Bool := false
  source : src.S
  callers : List (Caller src)

/-- `getInstance` at the initialisation of the package: seeded with the second of the start.  keygen.go:21-29, 39-41. -/
def start (src : Source) (unixSeconds : BitVec 64) (calls : List Nat) : State src :=
  { source := src.seed unixSeconds, callers := calls.map fun n => { left := n } }

variable {src : Source}

/-- The next access of a goroutine; `none` while it waits for the lock or has nothing to do.  `Next`, keygen.go:32-37. -/
def move (st : State src) (c : Caller src) : Option (State src × Caller src) :=
  match c.at_ with
  | .out =>
    match c.left with
    | 0 => none
    | n + 1 => some (st, { c with at_ := .waiting, left := n })
  | .waiting => if st.locked then none else some ({ st with locked := true }, { c with at_ := .inside })
  | .inside => some (st, { c with at_ := .computed st.source })
  | .computed s => some ({ st with source := src.next s }, { c with at_ := .drawn (int63 src s) })
  | .drawn key => some ({ st with locked := false }, { c with at_ := .unlocked key })
  | .unlocked key => some (st, { c with at_ := .out, got := c.got ++ [key] })

/-- A goroutine's turn.  Model only: the Go scheduler. keygen.go:32-37. -/
def State.turn (st : State src) (i : Nat) : State src :=
  match st.callers[i]? with
  | none => st
  | some c =>
    match move st c with
    | none => st
    | some (st', c') => { st' with callers := st'.callers.set i c' }

/-- A schedule.  Model only: the Go scheduler. keygen.go:32-37. -/
def State.run (st : State src) (is : List Nat) : State src := is.foldl State.turn st

end Keygen
end Scouter
