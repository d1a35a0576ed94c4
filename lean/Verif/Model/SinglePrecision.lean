import Verif.Model.Float32
import Verif.Model.Conversions
/-!
# Point / index conversions in single precision

The functions of `library/cpp/include/wavemap/core/indexing/index_conversions.h` as in `Verif.Model.Conversions`, with every operation rounded. `round`, `floor` and
`ceil` of a `float` are exact. The cast to `IndexElement` is assumed not to overflow.
-/
namespace Wavemap
namespace Single

/-- `scaledPointToNearestIndex` (index_conversions.h:16-19). -/
def scaledPointToNearestIndex {d : Nat} (p : Point d) : Index d := fun i => cppRound (fl (p i - 1 / 2))

/-- `pointToNearestIndex` (index_conversions.h:31-35). -/
def pointToNearestIndex {d : Nat} (p : Point d) (cellWidthInv : ℚ) : Index d :=
  scaledPointToNearestIndex fun i => fl (p i * cellWidthInv)

/-- `indexToMinCorner` (index_conversions.h:49-53). The cast of an index to `float` is rounded. -/
def indexToMinCorner {d : Nat} (index : Index d) (w : ℚ) : Point d := fun i => fl (fl (index i) * w)

/-- `indexToMaxCorner` (index_conversions.h:55-59). -/
def indexToMaxCorner {d : Nat} (index : Index d) (w : ℚ) : Point d := fun i => fl (fl (fl (index i) + 1) * w)

/-- `indexToCenterPoint` (index_conversions.h:61-65). -/
def indexToCenterPoint {d : Nat} (index : Index d) (w : ℚ) : Point d := fun i => fl (fl (fl (index i) + 1 / 2) * w)

/-- `heightToCellWidth` (index_conversions.h:75-78), height ≥ 0. -/
def heightToCellWidth (minCellWidth : ℚ) (height : Nat) : ℚ := fl (minCellWidth * fl (exp2 height : Nat))

/-- `pointToNodeIndex` (index_conversions.h:108-116). -/
def pointToNodeIndex {d : Nat} (p : Point d) (minCellWidth : ℚ) (height : Nat) : NdtreeIndex d :=
  ⟨height, pointToNearestIndex p (fl (1 / heightToCellWidth minCellWidth height))⟩

/-- `nodeIndexToCenterPoint` (index_conversions.h:118-124). -/
def nodeIndexToCenterPoint {d : Nat} (n : NdtreeIndex d) (minCellWidth : ℚ) : Point d :=
  indexToCenterPoint n.position (heightToCellWidth minCellWidth n.height.toNat)

/-- `nodeIndexToMinCorner` (index_conversions.h:126-132). -/
def nodeIndexToMinCorner {d : Nat} (n : NdtreeIndex d) (minCellWidth : ℚ) : Point d :=
  indexToMinCorner n.position (heightToCellWidth minCellWidth n.height.toNat)

/-- `nodeIndexToMaxCorner` (index_conversions.h:134-140). -/
def nodeIndexToMaxCorner {d : Nat} (n : NdtreeIndex d) (minCellWidth : ℚ) : Point d :=
  indexToMaxCorner n.position (heightToCellWidth minCellWidth n.height.toNat)

end Single
end Wavemap
