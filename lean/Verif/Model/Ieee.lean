import Verif.Model.SinglePrecision
/-!
# Point / index conversions with the full range of single precision

The functions of `library/cpp/include/wavemap/core/indexing/index_conversions.h` as in `Verif.Model.SinglePrecision`, for a rounding `r` that may also underflow and overflow.
-/
namespace Wavemap

/-- Rounding to single precision with subnormal numbers: below `2^-126`, the results are multiples of `2^-149`. The arithmetic of `FloatingPoint` (common.h:13), which is `float`.
Numbers above the largest single precision number are not given a meaning here: they are mapped as if the exponent was not bounded. -/
def ieeeRound (x : ℚ) : ℚ := if |x| < 1 / 2 ^ 126 then roundTiesToEven (x * 2 ^ 149) / 2 ^ 149 else fl x

namespace Ieee
variable (r : ℚ → ℚ)

/-- `scaledPointToNearestIndex` (index_conversions.h:16-19). -/
def scaledPointToNearestIndex {d : Nat} (p : Point d) : Index d := fun i => cppRound (r (p i - 1 / 2))

/-- `pointToNearestIndex` (index_conversions.h:31-35). -/
def pointToNearestIndex {d : Nat} (p : Point d) (cellWidthInv : ℚ) : Index d :=
  scaledPointToNearestIndex r fun i => r (p i * cellWidthInv)

/-- `indexToMinCorner` (index_conversions.h:49-53). -/
def indexToMinCorner {d : Nat} (index : Index d) (w : ℚ) : Point d := fun i => r (r (index i) * w)

/-- `indexToMaxCorner` (index_conversions.h:55-59). -/
def indexToMaxCorner {d : Nat} (index : Index d) (w : ℚ) : Point d := fun i => r (r (r (index i) + 1) * w)

/-- `indexToCenterPoint` (index_conversions.h:61-65). -/
def indexToCenterPoint {d : Nat} (index : Index d) (w : ℚ) : Point d := fun i => r (r (r (index i) + 1 / 2) * w)

/-- `heightToCellWidth` (index_conversions.h:75-78), height ≥ 0. -/
def heightToCellWidth (minCellWidth : ℚ) (height : Nat) : ℚ := r (minCellWidth * r (exp2 height : Nat))

/-- `pointToNodeIndex` (index_conversions.h:108-116). -/
def pointToNodeIndex {d : Nat} (p : Point d) (minCellWidth : ℚ) (height : Nat) : NdtreeIndex d :=
  ⟨height, pointToNearestIndex r p (r (1 / heightToCellWidth r minCellWidth height))⟩

/-- `nodeIndexToCenterPoint` (index_conversions.h:118-124). -/
def nodeIndexToCenterPoint {d : Nat} (n : NdtreeIndex d) (minCellWidth : ℚ) : Point d :=
  indexToCenterPoint r n.position (heightToCellWidth r minCellWidth n.height.toNat)

end Ieee
end Wavemap
