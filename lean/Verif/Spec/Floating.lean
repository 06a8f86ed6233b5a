import Verif.Model.Floating
/-!
# Specification of floating-point figures
-/
namespace Scouter.Floating

/-- The rational number a floating-point number is; infinities and what is not a number are none. -/
def real : Num → Option ℚ
  | .fin neg x => some (if neg then -x else x)
  | _ => none

/-- The floating-point number is a number, and differs from `exact` by at most `exact / 2 ^ k`. -/
def Near (k : Nat) (exact : ℚ) (n : Num) : Prop := ∃ v, real n = some v ∧ |v - exact| ≤ |exact| / 2 ^ k

/-- The numbers of a format that are not negative: whole numbers of so many digits, times a power of two. -/
def Format.Number (F : Format) (x : ℚ) : Prop := ∃ (m : Nat) (e : Int), m < 2 ^ F.digits ∧ F.least ≤ e ∧ x = m * 2 ^ e

end Scouter.Floating

/-- The mean of numbers, 0 when there are none. -/
def Scouter.Spec.mean (l : List Int) : ℚ := if l = [] then 0 else (l.sum : ℚ) / l.length

/-- The percentage of failed services, of services with their elapsed times and error flags; 0 when there are none. -/
def Scouter.Spec.failed (l : List (Int × Bool)) : ℚ := if l = [] then 0 else (l.countP (·.2) : ℚ) / l.length * 100
