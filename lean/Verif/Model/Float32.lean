import Mathlib.Data.Int.Log
import Mathlib.Data.Rat.Floor
/-!
# Single precision

The type `FloatingPoint` of the library is `float` (common.h:13): IEEE 754 binary32. Every operation (`+`, `-`, `*`, `/`, conversions) gives the exact result rounded
to 24 significant bits, to nearest, ties to even. Not modelled: overflow, subnormal numbers, infinities and NaNs; the exponent is not bounded.
-/
namespace Wavemap

/-- Nearest integer, ties to even (IEEE 754, roundTiesToEven). The arithmetic of `FloatingPoint` (common.h), which is `float`. -/
def roundTiesToEven (x : ℚ) : Int :=
  if x - ⌊x⌋ < 1 / 2 then ⌊x⌋ else if 1 / 2 < x - ⌊x⌋ then ⌊x⌋ + 1 else if ⌊x⌋ % 2 = 0 then ⌊x⌋ else ⌊x⌋ + 1

/-- The exponent of the last of the 24 significant bits of `x`. The arithmetic of `FloatingPoint` (common.h), which is `float`. -/
def lastBit (x : ℚ) : Int := Int.log 2 |x| - 23

/-- The single precision number nearest to `x`. Every operation on a `FloatingPoint` (common.h) rounds its exact result like this. -/
def fl (x : ℚ) : ℚ := if x = 0 then 0 else roundTiesToEven (x / 2 ^ lastBit x) * 2 ^ lastBit x

/-- The numbers that single precision can represent. `FloatingPoint` (common.h), without overflow and underflow. -/
def IsFloat (x : ℚ) : Prop := ∃ (k : Int) (e : Int), |k| < 2 ^ 24 ∧ x = k * 2 ^ e

end Wavemap
