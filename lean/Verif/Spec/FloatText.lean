import Verif.Spec.Config
import Verif.Spec.Floating
/-!
# Specification of decimal texts
-/
namespace Scouter.Floating
open Spec

/-- The text writes the number with three decimals: a possible minus sign, digits, a point and three digits. -/
def Writes (t : Bytes) (v : ℚ) : Prop :=
  ∃ (neg : Bool) (whole frac : Bytes), t = (if neg then [45] else []) ++ whole ++ 46 :: frac ∧
    whole ≠ [] ∧ whole.all isDigit = true ∧ frac.length = 3 ∧ frac.all isDigit = true ∧
    v = (if neg then -1 else 1) * (digitsValue whole + digitsValue frac / 1000)

end Scouter.Floating
