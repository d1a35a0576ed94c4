import Verif.Model.SinglePrecision
import Mathlib.Analysis.SpecialFunctions.Log.Base
/-!
# The height of nodes of a given width

`convert::cellWidthToHeight` (library/cpp/include/wavemap/core/indexing/index_conversions.h) and the Python function `convert.cell_width_to_height`
(library/python/src/convert.cc).
-/
namespace Wavemap

/-- `cellWidthToHeight` (index_conversions.h:80-83), with a given rounding of the product and a given `std::log2`. The logarithm of zero is an infinity and that of a negative number is not a
number; converting these to an integer is undefined: `none`. -/
noncomputable def cellWidthToHeight (r : ℚ → ℚ) (log2 : ℚ → ℝ) (cellWidth minCellWidthInv : ℚ) : Option Int :=
  if 0 < r (cellWidth * minCellWidthInv) then some ⌈log2 (r (cellWidth * minCellWidthInv))⌉ else none

/-- `cell_width_to_height` of the Python module (convert.cc:10-20), and as used in examples/cpp/queries/multi_resolution.cc:18-20: the inverse of the smallest cell width is rounded as well. -/
noncomputable def heightForWidth (r : ℚ → ℚ) (log2 : ℚ → ℝ) (cellWidth minCellWidth : ℚ) : Option Int :=
  cellWidthToHeight r log2 cellWidth (r (1 / minCellWidth))

/-- `nodeIndexToAABB(node_index, min_cell_width).width<0>()` (index_conversions.h:142-150, aabb.h:91-94) in single precision. -/
def Single.nodeAabbWidth {d : Nat} (n : NdtreeIndex d) (minCellWidth : ℚ) (i : Fin d) : ℚ :=
  fl (Single.nodeIndexToMaxCorner n minCellWidth i - Single.nodeIndexToMinCorner n minCellWidth i)

end Wavemap
