import Verif.Model.Recorders
/-!
# What is said about goroutines recording on one profile
-/
namespace Scouter
namespace Recorders

/-- Nobody is inside a call. -/
def State.idle (s : State) : Prop := ∀ g ∈ s.gors, g.code = []

/-- The goroutines take turns: whenever one makes a step, no other is inside a call. -/
def Turns (keep bulk : Int) (s : State) (is : List Nat) : Prop :=
  ∀ pre i post, is = pre ++ i :: post → ∀ j g, j ≠ i → (s.run keep bulk pre).gors[j]? = some g → g.code = []

/-- The calls begun along a schedule, in order. -/
def callsMade (keep bulk : Int) (s : State) : List Nat → List ProfOp
  | [] => []
  | i :: is =>
    (match s.gors[i]? with
      | some g => if g.code = [] then g.todo.head?.toList else []
      | none => []) ++ callsMade keep bulk (s.fire keep bulk i) is

/-- A profile after a sequence of calls, made one after the other with the same settings. -/
def oneByOne (keep bulk : Int) (calls : List ProfOp) : ProfState :=
  ProfState.run { col := { cap := keep.toNat } } (calls.map fun c => (keep, bulk, c))

end Recorders
end Scouter
