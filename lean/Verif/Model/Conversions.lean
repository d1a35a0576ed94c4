import Verif.Model.NdtreeIndex
import Mathlib.Data.Rat.Floor
/-!
# Point / index conversions

Models the floating-point part of
`library/cpp/include/wavemap/core/indexing/index_conversions.h`. `FloatingPoint` is `ℚ` (exact);
the cast to `IndexElement` is assumed not to overflow.
-/
namespace Wavemap

/-- `Point<dim>` (common.h). -/
abbrev Point (d : Nat) := Fin d → ℚ

/-- `Eigen::Array::round`, i.e. `std::round`: nearest integer, ties away from zero. Used at index_conversions.h:16-29. -/
def cppRound (x : ℚ) : Int := if 0 ≤ x then ⌊x + 1 / 2⌋ else ⌈x - 1 / 2⌉

/-- `scaledPointToNearestIndex` (index_conversions.h:16-19). -/
def scaledPointToNearestIndex {d : Nat} (p : Point d) : Index d := fun i => cppRound (p i - 1 / 2)

/-- `scaledPointToFloorIndex` (index_conversions.h:21-24). -/
def scaledPointToFloorIndex {d : Nat} (p : Point d) : Index d := fun i => ⌊p i - 1 / 2⌋

/-- `scaledPointToCeilIndex` (index_conversions.h:26-29). -/
def scaledPointToCeilIndex {d : Nat} (p : Point d) : Index d := fun i => ⌈p i - 1 / 2⌉

/-- `pointToNearestIndex` (index_conversions.h:31-35). -/
def pointToNearestIndex {d : Nat} (p : Point d) (cellWidthInv : ℚ) : Index d :=
  scaledPointToNearestIndex fun i => p i * cellWidthInv

/-- `pointToFloorIndex` (index_conversions.h:37-41). -/
def pointToFloorIndex {d : Nat} (p : Point d) (cellWidthInv : ℚ) : Index d :=
  scaledPointToFloorIndex fun i => p i * cellWidthInv

/-- `pointToCeilIndex` (index_conversions.h:43-47). -/
def pointToCeilIndex {d : Nat} (p : Point d) (cellWidthInv : ℚ) : Index d :=
  scaledPointToCeilIndex fun i => p i * cellWidthInv

/-- `indexToMinCorner` (index_conversions.h:49-53). -/
def indexToMinCorner {d : Nat} (index : Index d) (w : ℚ) : Point d := fun i => index i * w

/-- `indexToMaxCorner` (index_conversions.h:55-59). -/
def indexToMaxCorner {d : Nat} (index : Index d) (w : ℚ) : Point d := fun i => (index i + 1) * w

/-- `indexToCenterPoint` (index_conversions.h:61-65). -/
def indexToCenterPoint {d : Nat} (index : Index d) (w : ℚ) : Point d :=
  fun i => (index i + 1 / 2) * w

/-- `indexToNewResolution` (index_conversions.h:67-73). -/
def indexToNewResolution {d : Nat} (index : Index d) (srcW dstW : ℚ) : Index d :=
  pointToNearestIndex (indexToCenterPoint index srcW) (1 / dstW)

/-- `heightToCellWidth` (index_conversions.h:75-78), height ≥ 0. -/
def heightToCellWidth (minCellWidth : ℚ) (height : Nat) : ℚ := minCellWidth * (exp2 height : Nat)

/-- `pointToNodeIndex` (index_conversions.h:108-116). -/
def pointToNodeIndex {d : Nat} (p : Point d) (minCellWidth : ℚ) (height : Nat) : NdtreeIndex d :=
  ⟨height, pointToNearestIndex p (1 / heightToCellWidth minCellWidth height)⟩

/-- `nodeIndexToCenterPoint` (index_conversions.h:118-124). -/
def nodeIndexToCenterPoint {d : Nat} (n : NdtreeIndex d) (minCellWidth : ℚ) : Point d :=
  indexToCenterPoint n.position (heightToCellWidth minCellWidth n.height.toNat)

/-- `nodeIndexToMinCorner` (index_conversions.h:126-132). -/
def nodeIndexToMinCorner {d : Nat} (n : NdtreeIndex d) (minCellWidth : ℚ) : Point d :=
  indexToMinCorner n.position (heightToCellWidth minCellWidth n.height.toNat)

/-- `nodeIndexToMaxCorner` (index_conversions.h:134-140). -/
def nodeIndexToMaxCorner {d : Nat} (n : NdtreeIndex d) (minCellWidth : ℚ) : Point d :=
  indexToMaxCorner n.position (heightToCellWidth minCellWidth n.height.toNat)

end Wavemap
