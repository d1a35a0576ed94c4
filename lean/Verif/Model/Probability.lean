import Mathlib.Analysis.SpecialFunctions.Exp
import Mathlib.Analysis.SpecialFunctions.Log.Basic
import Verif.Model.Float32
/-!
# Probabilities

Models `utils/query/probability_conversions.h`, under `library/cpp/include/wavemap/core`: over `ℝ`, and in single precision. The exponential function of the C++ standard
library is a parameter of the single precision version. Numbers that are too small for a `float` are not modelled.
-/
namespace Wavemap

/-- `logOddsToProbability` (probability_conversions.h:14-18), over `ℝ`. -/
noncomputable def logOddsToProbability (logOdds : ℝ) : ℝ :=
  let odds := Real.exp logOdds
  odds / (1 + odds)

/-- `probabilityToLogOdds` (probability_conversions.h:20-23), over `ℝ`. -/
noncomputable def probabilityToLogOdds (probability : ℝ) : ℝ :=
  let odds := probability / (1 - probability)
  Real.log odds

/-- `std::numeric_limits<FloatingPoint>::max()` (probability_conversions.h:12). -/
def maxFloat : ℚ := (2 ^ 24 - 1) * 2 ^ 104

/-- `logOddsToProbability` (probability_conversions.h:14-18) in single precision; `expF` is `std::exp`, where a value above `maxFloat` stands for infinity. `none` is NaN,
the quotient of two infinities. The sum does not overflow if `odds` does not. -/
def logOddsToProbabilitySingle (expF : ℚ → ℚ) (logOdds : ℚ) : Option ℚ :=
  let odds := expF logOdds
  if maxFloat < odds then none else some (fl (odds / fl (1 + odds)))

/-- `odds` in `probabilityToLogOdds` (probability_conversions.h:21) in single precision; `none` is infinity or NaN, the result of a division by zero. -/
def probabilityToOddsSingle (probability : ℚ) : Option ℚ :=
  if fl (1 - probability) = 0 then none else some (fl (probability / fl (1 - probability)))

end Wavemap
