import Verif.Model.Stepwise
/-!
# Goroutines as if each were alone
-/
namespace Scouter

/-- The readings at other moments: entry `k` is the entry `σ k` of `env`. -/
def Oracle.at (env : Oracle) (σ : Nat → Nat) : Oracle where
  clock k := env.clock (σ k)
  id k := env.id (σ k)
  draw k := env.draw (σ k)
  goid k := env.goid (σ k)
  panicText k := env.panicText (σ k)

namespace Stepwise

/-- The moments of a goroutine's readings come one after the other, and no two goroutines (of `n`) read at the same moment. -/
structure Dealt (n : Nat) (σ : Nat → Nat → Nat) : Prop where
  increasing : ∀ i, i < n → ∀ k l, k < l → σ i k < σ i l
  apart : ∀ i j, i < n → j < n → i ≠ j → ∀ k l, σ i k ≠ σ j l

/-- The goroutine has nothing more to do. -/
def Finished (g : Goroutine) : Prop := g.todo = .pure ()

/-- A goroutine that has not begun to make these calls, with contexts and steps it was given. -/
def Goroutine.fresh (tctxs : List Tctx) (steps : List Step) (cs : List Trace.Call) : Goroutine :=
  { todo := codes cs, tctxs := tctxs, steps := steps }

/-- A goroutine that was given these contexts and steps makes its calls in a program of its own. -/
def byItself (env : Oracle) (conf : TraceConf) (cap : Nat) (tctxs : List Tctx) (steps : List Step) (cs : List Trace.Call) : World :=
  Trace.history { Trace.start env conf cap with tctxs := tctxs, steps := steps } cs

end Stepwise
end Scouter
