import Verif.Model.Counting
/-!
# Vocabulary for counting the active services while services start and end
-/
namespace Scouter
namespace Counting

/-- For how many whole milliseconds a service had been running. -/
def age (now : Int) (e : Entry) : Int := (now - e.2).tdiv 1000000

/-- The colours in which running services are shown. -/
inductive Colour where
  | green | yellow | red
deriving DecidableEq, Repr

/-- Green up to the yellow time, yellow up to the red time, then red. -/
def Settings.colour (s : Settings) (ms : Int) : Colour :=
  if ms ≤ s.yellow then .green else if ms ≤ s.red then .yellow else .red

/-- The figure of a colour. -/
def Figures.get (f : Figures) : Colour → Nat
  | .green => f.green
  | .yellow => f.yellow
  | .red => f.red

/-- All three figures together, which the pack shows as the number of active services. -/
def Figures.total (f : Figures) : Nat := f.green + f.yellow + f.red

/-- The ids of the services that are to be entered in the table during a history. -/
def started {V : Type} : List (Iterating.Event (BitVec 64) V) → List (BitVec 64)
  | [] => []
  | .write (.add k _) :: es => k :: started es
  | _ :: es => started es

end Counting
end Scouter
