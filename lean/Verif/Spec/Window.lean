/-!
# Specification of counters over a sliding window of whole seconds
-/
namespace Scouter.Spec

/-- The recordings of the last `p` seconds including the current one, of those listed with the second they were made in. -/
def window {A : Type} (now p : Int) (recs : List (Int × A)) : List A :=
  (recs.filter fun r => now - p < r.1 ∧ r.1 ≤ now).map (·.2)

/-- The seconds never go back, and start no earlier than `t`. -/
def Forward : Int → List Int → Prop
  | _, [] => True
  | t, s :: ss => t ≤ s ∧ Forward s ss

/-- The last of the seconds, or `t`. -/
def lastOf (t : Int) (ss : List Int) : Int := ss.getLast?.getD t

/-- An elapsed time, with negative ones counted as 0. -/
def clipped (e : Int) : Int := max 0 e

end Scouter.Spec
