import Verif.Model.Looking
/-!
# Vocabulary for looks at active services while the configuration is loaded again and again
-/
namespace Scouter
namespace Looking

/-- The options when the configuration is `l`. -/
def Limits.words (l : Limits) : Mem
  | .base => l.base
  | .remove => if l.remove then 1 else 0
  | .alert => if l.alert then 1 else 0
  | .yellow => l.yellow
  | .red => l.red

/-- The agent with configuration `l`, which is going to be loaded again as in `ls`; no look has been begun.  The configurations there are in the course
   of time are `l :: ls`. -/
def agent (l : Limits) (ls : List Limits) : State := { mem := l.words, next := ls }

/-- How many loads have begun. -/
def State.begun (s : State) : Nat := if s.now = [] then s.complete else s.complete + 1

/-- What a look at a service of the given age should come to: it is counted by its age; and if it is older than the base time it is ended, if that is
   configured, and an alert sent about it, an error (2) or a warning (1). -/
def Limits.says (l : Limits) (elapsed : Int) : Verdict :=
  { colour := if elapsed ≤ l.yellow then 0 else if elapsed ≤ l.red then 1 else 2
    ended := decide (elapsed > l.base) && l.remove
    level := if elapsed > l.base then some (if l.alert then 2 else 1) else none }

/-- `l` is configuration number `i` of `vs`, one of those from `lo` to `hi`. -/
def Among (vs : List Limits) (lo hi i : Nat) (l : Limits) : Prop := vs[i]? = some l ∧ lo ≤ i ∧ i ≤ hi

/-- What a look may come to that is taken while the configurations are those from `lo` to `hi`: each option is that of one of them (number `y` for the
   limit of yellow, and so on); those for the colours are not newer than the others, and none is more than one older than what is read before it. -/
def MayCome (vs : List Limits) (lo hi : Nat) (elapsed : Int) (v : Verdict) : Prop :=
  ∃ y ly r lr b lb m lm a la, Among vs lo hi y ly ∧ Among vs lo hi r lr ∧ Among vs lo hi b lb ∧ Among vs lo hi m lm ∧ Among vs lo hi a la ∧
    y ≤ b ∧ r ≤ b ∧ y ≤ m ∧ r ≤ m ∧ y ≤ a ∧ r ≤ a ∧ y ≤ r + 1 ∧ b ≤ m + 1 ∧ b ≤ a + 1 ∧ m ≤ a + 1 ∧
    v = (⟨lb.base, lm.remove, la.alert, ly.yellow, lr.red⟩ : Limits).says elapsed

end Looking
end Scouter
