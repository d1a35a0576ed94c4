import Verif.Model.Conversions
/-!
# Interpolated queries

Models `library/cpp/include/wavemap/core/utils/query/impl/map_interpolator_inl.h`. The map is given by `getMinCellWidth` and
`getCellValue`. Floating point numbers are exact rationals.
-/
namespace Wavemap

namespace Interpolate

/-- `nearestNeighbor` (map_interpolator_inl.h:8-16). -/
def nearestNeighbor (w : ℚ) (getCellValue : Index 3 → ℚ) (p : Point 3) : ℚ := getCellValue (pointToNearestIndex p (1 / w))

/-- The offset of a neighbour (map_interpolator_inl.h:29-30). -/
def offset (k : Nat) : Index 3 := fun i =>
  match i with
  | 0 => ((k >>> 2) &&& 1 : Nat)
  | 1 => ((k >>> 1) &&& 1 : Nat)
  | 2 => (k &&& 1 : Nat)

/-- `a`, the offset to the minimum corner in units of the cell width (map_interpolator_inl.h:35-38). -/
def weight (w : ℚ) (p : Point 3) : Point 3 := fun i => (p i - indexToCenterPoint (pointToFloorIndex p (1 / w)) w i) * (1 / w)

/-- `a_comp` (map_interpolator_inl.h:42). -/
def weightComp (w : ℚ) (p : Point 3) : Point 3 := fun i => 1 - weight w p i

/-- `trilinear` (map_interpolator_inl.h:18-65); the four `DCHECK`s are `C28_weights_checked`. -/
def trilinear (w : ℚ) (getCellValue : Index 3 → ℚ) (p : Point 3) : ℚ :=
  let minCorner := pointToFloorIndex p (1 / w)
  let cube : Nat → ℚ := fun k => getCellValue fun i => minCorner i + offset k i
  let a := weight w p
  let c := weightComp w p
  let plane : Nat → ℚ := fun k => c 0 * cube k + a 0 * cube (k + 4)
  let line : Nat → ℚ := fun k => c 1 * plane k + a 1 * plane (k + 2)
  c 2 * line 0 + a 2 * line 1

end Interpolate
end Wavemap
