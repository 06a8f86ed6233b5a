import Mathlib.Data.Int.Log
import Mathlib.Data.Rat.Floor
import Verif.Model.Counter
/-!
# Floating-point numbers (scouterx/counter/serviceMetering.go, valueMetering.go, gocounter/gocounter.go, common/netdata/perfcounterpack.go)

The arithmetic of `float32` and `float64` (IEEE 754, rounding to the nearest, ties to even) that the figures of the counter
packs are computed with.
-/
namespace Scouter
namespace Floating

/-- A binary format: how many digits a number has, and the power of two no number reaches.  Go language. -/
structure Format where
  digits : Nat
  top : Int

/-- `float32`.  Go language. -/
def single : Format := ⟨24, 128⟩

/-- `float64`.  Go language. -/
def double : Format := ⟨53, 1024⟩

/-- A number: not a number, an infinity, or a sign and a magnitude (zero has a sign too).  Go language. -/
inductive Num where
  | nan
  | inf (neg : Bool)
  | fin (neg : Bool) (mag : ℚ)
deriving DecidableEq

/-- The whole number nearest to `x`; the even one of two.  Go language (IEEE 754, 4.3.1). -/
def nearest (x : ℚ) : Int :=
  if x - ⌊x⌋ < 1 / 2 then ⌊x⌋
  else if x - ⌊x⌋ = 1 / 2 ∧ ⌊x⌋ % 2 = 0 then ⌊x⌋
  else ⌊x⌋ + 1

/-- The least exponent of a last digit (that of the subnormal numbers).  Go language (IEEE 754, 3.4). -/
def Format.least (F : Format) : Int := 3 - F.top - F.digits

/-- The exponent of the last digit of a magnitude in this format.  Go language (IEEE 754, 3.4). -/
def Format.exponent (F : Format) (x : ℚ) : Int :=
  if x = 0 then F.least else max (Int.log 2 x - (F.digits - 1)) F.least

/-- A magnitude rounded to the digits of the format.  Go language (IEEE 754, 4.3.1). -/
def Format.rounded (F : Format) (x : ℚ) : ℚ := nearest (x / 2 ^ F.exponent x) * 2 ^ F.exponent x

/-- The number for a sign and a magnitude: rounded, or an infinity.  Go language (IEEE 754, 4.3.1, 7.4). -/
def Format.number (F : Format) (neg : Bool) (mag : ℚ) : Num :=
  if 2 ^ F.top ≤ F.rounded mag then .inf neg else .fin neg (F.rounded mag)

/-- The conversion of a whole number.  Go language; serviceMetering.go:73-80, valueMetering.go:58, gocounter.go:45-46. -/
def Format.ofInt (F : Format) (n : Int) : Num := F.number (n < 0) |(n : ℚ)|

/-- The sum.  Go language (IEEE 754, 6.3 for the sign of zero); valueMetering.go:42, :52. -/
def Format.add (F : Format) : Num → Num → Num
  | .nan, _ | _, .nan => .nan
  | .inf s, .inf t => if s = t then .inf s else .nan
  | .inf s, .fin .. => .inf s
  | .fin .., .inf t => .inf t
  | .fin s x, .fin t y =>
    let v := (if s then -x else x) + (if t then -y else y)
    if v = 0 then .fin (s && t) 0 else F.number (v < 0) |v|

/-- The product.  Go language; serviceMetering.go:79, gocounter.go:45-46. -/
def Format.mul (F : Format) : Num → Num → Num
  | .nan, _ | _, .nan => .nan
  | .inf s, .inf t => .inf (s ^^ t)
  | .inf s, .fin t y => if y = 0 then .nan else .inf (s ^^ t)
  | .fin s x, .inf t => if x = 0 then .nan else .inf (s ^^ t)
  | .fin s x, .fin t y => F.number (s ^^ t) (x * y)

/-- The quotient.  Go language; serviceMetering.go:73-79, valueMetering.go:58, gocounter.go:45-46. -/
def Format.div (F : Format) : Num → Num → Num
  | .nan, _ | _, .nan => .nan
  | .inf _, .inf _ => .nan
  | .inf s, .fin t _ => .inf (s ^^ t)
  | .fin s _, .inf t => .fin (s ^^ t) 0
  | .fin s x, .fin t y => if y = 0 then (if x = 0 then .nan else .inf (s ^^ t)) else F.number (s ^^ t) (x / y)

/-- The conversion from another format: `float32(v)`.  Go language; perfcounterpack.go:59-62. -/
def Format.convert (F : Format) : Num → Num
  | .fin s x => F.number s x
  | n => n

/-- The bits of a number as a whole number below `2 ^ (bits - 1)`, without the sign; `nan` are those of a number that is not one, which
the processor chooses.  Go language (`math.Float32bits`, IEEE 754, 3.4). -/
def Format.code (F : Format) (nan : Nat) : Num → Nat
  | .nan => nan
  | .inf _ => ((2 * F.top - 1) * 2 ^ (F.digits - 1)).toNat
  | .fin _ x => ((F.exponent x - F.least) * 2 ^ (F.digits - 1) + ⌊x / 2 ^ F.exponent x⌋).toNat

/-- The sign of a number.  Go language (IEEE 754, 3.4). -/
def Num.neg : Num → Bool
  | .nan => false
  | .inf s => s
  | .fin s _ => s

/-- The bits of a `float32`.  Go language (`math.Float32bits`); dataoutputx.go:97-102. -/
def bits32 (n : Num) : BitVec 32 := BitVec.ofNat 32 ((if n.neg then 2 ^ 31 else 0) + single.code 0x7fc00000 n)

/-- The bits of a `float64`.  Go language (`math.Float64bits`); dataoutputx.go:104-109. -/
def bits64 (n : Num) : BitVec 64 := BitVec.ofNat 64 ((if n.neg then 2 ^ 63 else 0) + double.code 0x7ff8000000000000 n)

/-- The number with the bits `c` (without the sign).  Go language (IEEE 754, 3.4). -/
def Format.decode (F : Format) (neg : Bool) (c : Nat) : Num :=
  let e := c / 2 ^ (F.digits - 1)
  let m := c % 2 ^ (F.digits - 1)
  if e = 2 * F.top - 1 then (if m = 0 then .inf neg else .nan)
  else if e = 0 then .fin neg (m * 2 ^ F.least)
  else .fin neg ((2 ^ (F.digits - 1) + m) * 2 ^ ((e : Int) - 1 + F.least))

/-- The number a `float32` is, from its bits.  Go language (IEEE 754, 3.4). -/
def value32 (b : BitVec 32) : Num := single.decode (b.toNat / 2 ^ 31 = 1) (b.toNat % 2 ^ 31)

/-- The number a `float64` is, from its bits.  Go language (IEEE 754, 3.4). -/
def value64 (b : BitVec 64) : Num := double.decode (b.toNat / 2 ^ 63 = 1) (b.toNat % 2 ^ 63)

/-- The quotient of two whole numbers times a constant.  serviceMetering.go:79, gocounter.go:45-46. -/
def Format.ratio (F : Format) (a b scale : Int) : Num := F.mul (F.div (F.ofInt a) (F.ofInt b)) (F.ofInt scale)

/-- The floating-point computations of the packs.  serviceMetering.go:73, :79; valueMetering.go:58 (the sum, of whole numbers below 2^53,
is exact); gocounter.go:45-46; perfcounterpack.go:59-62. -/
def ieee : Counter.Floats where
  tps := fun count period => bits32 (single.div (single.ofInt count) (single.ofInt period))
  errorRate := fun errors count => bits32 (single.ratio errors count 100)
  average := fun sum count => bits64 (double.div (double.ofInt sum) (double.ofInt count))
  gcCount := fun collections nanos => bits64 (double.ratio collections nanos 1000000000)
  gcPause := fun pause nanos => bits64 (double.ratio pause nanos 1000)
  narrow := fun b => bits32 (single.convert (value64 b))

/-- The values added to a bucket one after the other, and the buckets of a period: valueMetering.go:42, :52. -/
def sums (vs : List Num) : Num := vs.foldl double.add (.fin false 0)

end Floating
end Scouter
