import Verif.Model.Profiling
import Verif.Spec.Files
/-!
# Vocabulary for profiles taken on request
-/
namespace Scouter
namespace Profiling
open Dump

/-- Profiles of the contention of mutexes. -/
def Kind.ofMutex : Kind → Bool
  | .mutex | .mutexBinary => true
  | _ => false

/-- Profiles of blocking. -/
def Kind.ofBlock : Kind → Bool
  | .block | .blockBinary => true
  | _ => false

/-- The fraction a mutex profile sets. -/
def Kind.fraction : Kind → Int
  | .mutex => 10
  | _ => 5

/-- A job of a kind is under way at `i`. -/
def Running (s : State) (what : Kind → Bool) (i : Nat) : Prop :=
  ∃ k f old, s.jobs[i]? = some ⟨k, f, .running old⟩ ∧ what k = true

/-- No job of a kind is under way. -/
def Idle (s : State) (what : Kind → Bool) : Prop := ∀ i, ¬ Running s what i

/-- No mutex profile begins, and the application does not set the fraction, while a mutex profile is under way. -/
def Apart (dumpDir binaryDir : Path) : State → List Event → Prop
  | _, [] => True
  | s, e :: es =>
    (match e with
      | .start i => ∀ k f, s.jobs[i]? = some ⟨k, f, .asked⟩ → k.ofMutex = true → Idle s Kind.ofMutex
      | .appMutex _ => Idle s Kind.ofMutex
      | _ => True) ∧ Apart dumpDir binaryDir (step dumpDir binaryDir s e) es

/-- The fraction the application wants: the last it set (a negative one is a mere question), the initial one before. -/
def wanted (f : Int) : List Event → Int
  | [] => f
  | .appMutex r :: es => wanted (if r < 0 then f else r) es
  | _ :: es => wanted f es

/-- An event that does not finish the `i`-th profile. -/
def Event.spares (i : Nat) : Event → Prop
  | .finish j _ => j ≠ i
  | _ => True

/-- An event with no goroutine of a profile involved and that leaves the mutex fraction to itself. -/
def Event.distant : Event → Prop
  | .request .. | .appBlock _ => True
  | _ => False

/-- An event that begins a profile, or with which the application sets the block profile rate. -/
def Event.begins : Event → Prop
  | .start _ | .appBlock _ => True
  | _ => False

/-- The switch a profile needs is on: block profiling at one sample per millisecond blocked, mutex profiling at its fraction, CPU profiling. -/
def Recording (rt : Runtime) (k : Kind) : Prop :=
  match k with
  | .cpu => rt.cpu = true
  | .block | .blockBinary => rt.blockRate = 1000000
  | .mutex | .mutexBinary => rt.mutexFraction = k.fraction

/-- An event that does not touch the switches: no profile begins or finishes and the application does not set them. -/
def Event.aside : Event → Prop
  | .request .. => True
  | _ => False

end Profiling
end Scouter
