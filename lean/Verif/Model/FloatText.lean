import Verif.Model.Floating
import Verif.Model.Print
/-!
# Texts of floating-point values, and `RoundUp` (common/netdata/floatvalue.go, doublevalue.go, common/util/mathutil.go)
-/
namespace Scouter
namespace Floating

/-- The three digits of a number below 1000.  Library strconv; doublevalue.go:44-46. -/
def threeDigits (k : Nat) : Bytes := [digitByte (k / 100 % 10), digitByte (k / 10 % 10), digitByte (k % 10)]

/-- `strconv.FormatFloat(x, 'f', 3, 64)`: the number rounded to thousandths, ties to even, with its sign.  Library strconv; doublevalue.go:44-46,
floatvalue.go:46-48. -/
def format3 : Num → Bytes
  | .nan => ascii "NaN"
  | .inf neg => if neg then ascii "-Inf" else ascii "+Inf"
  | .fin neg x =>
    let k := (nearest (x * 1000)).toNat
    (if neg then [45] else []) ++ formatNat 10 (k / 1000) ++ 46 :: threeDigits (k % 1000)

/-- `float64(x)` of a `float32`, and the text of a `float64`.  Go language; floatvalue.go:46-48, doublevalue.go:44-46. -/
def texts : Scouter.Floats where
  widen := fun b => bits64 (double.convert (value32 b))
  format := fun b => format3 (value64 b)

/-- `math.Ceil`.  Library math; mathutil.go:10. -/
def Num.ceil : Num → Num
  | .fin false x => .fin false ⌈x⌉
  | .fin true x => .fin true ⌊x⌋
  | n => n

/-- `RoundUp`, mathutil.go:5-13; `pow` is `math.Pow(10, float64(places))`. -/
def roundUp (pow input : Num) : Num :=
  let digit := double.mul pow input
  let round := digit.ceil
  double.div round pow

end Floating
end Scouter
