import Verif.Model.Trace
/-!
# Several goroutines ending the same service

`endAnyService` and `endAnyServiceOfTraceContext` (tracemain.go:347-398) test and set `Closed` without synchronisation.
Here each goroutine runs them in four steps: the first test, the second test, the assignment, and the rest; other
goroutines may run between the steps.  The rest is one step.
-/
namespace Scouter
namespace Trace
open TM

/-- `endAnyServiceOfTraceContext` after the assignment to `Closed`, tracemain.go:379-397. -/
def endFinish (p : Nat) : TM Unit := do
  let t ← getT p
  let h ← sendText .service t.serviceName
  modT p fun t => { t with serviceHash := h }
  unregister p
  let t ← getT p
  let elapsed ← millisToNow t.startTime
  let discard ← findXLogDiscard t elapsed
  let xlog ← toXlog t discard elapsed
  profileClose p (discard == discardNone)
  meter xlog.elapsed.toInt (xlog.error != 0)
  if keepsXlog xlog then sendXlog xlog else pure ()

/-- How far a goroutine has got: before the test of tracemain.go:352, before that of :374, before the assignment of :377,
before the rest, finished. -/
inductive EndPc where
  | test1 | test2 | mark | rest | done
deriving DecidableEq, Repr

/-- The world and the goroutines ending the service at position `p`.
   Model only: goroutines inside tracemain.go:373-398. -/
structure Enders where
  world : World
  pcs : List EndPc

/-- One step of goroutine `i`.  tracemain.go:373-398. -/
def Enders.fire (p : Nat) (s : Enders) (i : Nat) : Enders :=
  match s.pcs[i]? with
  | some .test1 => { s with pcs := s.pcs.set i (if (s.world.tctxs[p]?.map (·.closed)) = some false then .test2 else .done) }
  | some .test2 => { s with pcs := s.pcs.set i (if (s.world.tctxs[p]?.map (·.closed)) = some false then .mark else .done) }
  | some .mark => { world := (modT p (fun t => { t with closed := true }) s.world).2, pcs := s.pcs.set i .rest }
  | some .rest => { world := (endFinish p s.world).2, pcs := s.pcs.set i .done }
  | _ => s

/-- A schedule: the goroutines in the order in which they make steps.
   Model only: the Go scheduler between the steps of tracemain.go:373-398. -/
def Enders.run (p : Nat) (s : Enders) (is : List Nat) : Enders := is.foldl (Enders.fire p) s

/-- `n` goroutines about to end the service.  tracemain.go:373-375. -/
def Enders.begin (w : World) (n : Nat) : Enders := ⟨w, List.replicate n .test1⟩

end Trace
end Scouter
