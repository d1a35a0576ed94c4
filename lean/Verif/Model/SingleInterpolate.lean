import Verif.Model.SinglePrecision
import Verif.Model.Interpolate
/-!
# Interpolated queries in single precision

The functions of `library/cpp/include/wavemap/core/utils/query/impl/map_interpolator_inl.h` as in `Verif.Model.Interpolate`, with every operation rounded.
-/
namespace Wavemap
namespace Single

/-- `pointToFloorIndex` (index_conversions.h:21-24, 37-41). The cast to `IndexElement` is assumed not to overflow. -/
def pointToFloorIndex {d : Nat} (p : Point d) (cellWidthInv : ℚ) : Index d := fun i => ⌊fl (fl (p i * cellWidthInv) - 1 / 2)⌋

/-- `nearestNeighbor` (map_interpolator_inl.h:8-16). -/
def nearestNeighbor (w : ℚ) (getCellValue : Index 3 → ℚ) (p : Point 3) : ℚ := getCellValue (pointToNearestIndex p (fl (1 / w)))

/-- `a`, the offset to the minimum corner in units of the cell width (map_interpolator_inl.h:35-38). -/
def weight (w : ℚ) (p : Point 3) : Point 3 := fun i =>
  fl (fl (p i - indexToCenterPoint (pointToFloorIndex p (fl (1 / w))) w i) * fl (1 / w))

/-- `a_comp` (map_interpolator_inl.h:42). -/
def weightComp (w : ℚ) (p : Point 3) : Point 3 := fun i => fl (1 - weight w p i)

/-- `kEpsilon` (constants.h:15). -/
def kEpsilon : ℚ := fl (1 / 1000000)

/-- The four `DCHECK`s (map_interpolator_inl.h:39-40, 43-44), which only debug builds execute. -/
def weightsChecked (w : ℚ) (p : Point 3) : Prop :=
  ∀ i, fl (0 - kEpsilon) ≤ weight w p i ∧ weight w p i ≤ fl (1 + kEpsilon) ∧ fl (0 - kEpsilon) ≤ weightComp w p i ∧ weightComp w p i ≤ fl (1 + kEpsilon)

/-- One of the sums of two products (map_interpolator_inl.h:50-51, 58-59, 64). -/
def blend (c a x y : ℚ) : ℚ := fl (fl (c * x) + fl (a * y))

/-- `trilinear` (map_interpolator_inl.h:18-65), in a release build. -/
def trilinear (w : ℚ) (getCellValue : Index 3 → ℚ) (p : Point 3) : ℚ :=
  let minCorner := pointToFloorIndex p (fl (1 / w))
  let cube : Nat → ℚ := fun k => getCellValue fun i => minCorner i + Interpolate.offset k i
  let a := weight w p
  let c := weightComp w p
  let plane : Nat → ℚ := fun k => blend (c 0) (a 0) (cube k) (cube (k + 4))
  let line : Nat → ℚ := fun k => blend (c 1) (a 1) (plane k) (plane (k + 2))
  blend (c 2) (a 2) (line 0) (line 1)

end Single
end Wavemap
