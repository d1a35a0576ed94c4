import Verif.Model.Morton
/-!
# Node indices and index conversions

Models `indexing/ndtree_index.h`, `indexing/impl/ndtree_index_inl.h` and the integer part of
`indexing/index_conversions.h` (all under `library/cpp/include/wavemap/core`).
-/
namespace Wavemap

/-- `NdtreeIndex<dim>` (indexing/ndtree_index.h:15-47): height and position. -/
@[ext] structure NdtreeIndex (d : Nat) where
  height : Int
  position : Index d

namespace NdtreeIndex
variable {d : Nat}

/-- `computeParentIndex()` (ndtree_index_inl.h:13-16). -/
def computeParentIndex (n : NdtreeIndex d) : NdtreeIndex d :=
  ⟨n.height + 1, fun i => divExp2Floor (n.position i) 1⟩

/-- `computeParentIndex(parent_height)` (ndtree_index_inl.h:18-24). The `DCHECK_GE(parent_height,
height)` is a precondition; below it the shift amount would be negative. -/
def computeParentIndexAt (n : NdtreeIndex d) (parentHeight : Int) : NdtreeIndex d :=
  ⟨parentHeight, fun i => divExp2Floor (n.position i) (parentHeight - n.height).toNat⟩

/-- `computeChildIndex` (ndtree_index_inl.h:26-43). -/
def computeChildIndex (n : NdtreeIndex d) (c : Nat) : NdtreeIndex d :=
  ⟨n.height - 1, fun i => n.position i * 2 + (((c >>> i.val) &&& 1 : Nat) : Int)⟩

/-- `computeChildIndices` (ndtree_index_inl.h:45-54), `kNumChildren = 2^dim`. -/
def computeChildIndices (n : NdtreeIndex d) : List (NdtreeIndex d) :=
  (List.range (exp2 d)).map n.computeChildIndex

/-- `computeRelativeChildIndex()` (ndtree_index_inl.h:56-63): `position[i] & 1` is the parity of the
two's complement word, i.e. `position[i] mod 2`. -/
def computeRelativeChildIndex (n : NdtreeIndex d) : Nat :=
  (List.finRange d).foldl (fun acc i => acc + ((n.position i % 2).toNat <<< i.val)) 0

/-- `computeRelativeChildIndex(morton, parent_height)` (ndtree_index_inl.h:65-71). -/
def relativeChildOfMorton (dim morton parentHeight : Nat) : Nat :=
  (morton >>> ((parentHeight - 1) * dim)) &&& ((1 <<< dim) - 1)

/-- `computeLastCommonAncestorHeight` (ndtree_index_inl.h:73-93) on 64-bit Morton indices. -/
def lastCommonAncestorHeight (dim firstMorton firstHeight secondMorton secondHeight : Nat) : Nat :=
  let maxHeight := max firstHeight secondHeight
  if firstMorton = secondMorton then maxHeight
  else
    let mortonDiff := firstMorton ^^^ secondMorton
    let firstDiffBit := 64 - clz64 mortonDiff
    let firstDiffHeight := divRoundUp firstDiffBit dim
    max maxHeight firstDiffHeight

/-- `computeLevelTraversalDistance` (ndtree_index_inl.h:95-103). -/
def levelTraversalDistance (dim morton parentHeight childHeight : Nat) : Nat :=
  let heightDifference := parentHeight - childHeight
  let mask := (1 <<< (heightDifference * dim)) - 1
  (morton >>> (childHeight * dim)) &&& mask

/-- `computeTreeTraversalDistance` (ndtree_index_inl.h:105-115). -/
def treeTraversalDistance (dim morton parentHeight childHeight : Nat) : Nat :=
  numTotalNodesFast dim (parentHeight - childHeight)
    + levelTraversalDistance dim morton parentHeight childHeight

end NdtreeIndex

/-- `convert::indexAndHeightToNodeIndex` (index_conversions.h:154-161), `DCHECK_GE(height, 0)`. -/
def indexAndHeightToNodeIndex {d : Nat} (index : Index d) (height : Nat) : NdtreeIndex d :=
  ⟨height, fun i => divExp2Floor (index i) height⟩

/-- `convert::nodeIndexToMinCornerIndex` (index_conversions.h:163-170), height ≥ 0. -/
def nodeIndexToMinCornerIndex {d : Nat} (n : NdtreeIndex d) : Index d :=
  fun i => multExp2 (n.position i) n.height.toNat

/-- `convert::nodeIndexToMaxCornerIndex` (index_conversions.h:172-180). -/
def nodeIndexToMaxCornerIndex {d : Nat} (n : NdtreeIndex d) : Index d :=
  fun i => nodeIndexToMinCornerIndex n i + ((exp2 n.height.toNat : Int) - 1)

/-- `convert::indexToMorton` (index_conversions.h:182-185), look-up-table build. -/
def indexToMorton {d : Nat} (index : Index d) : Nat := Morton.encodeLut index

/-- `convert::mortonToIndex` (index_conversions.h:187-190), look-up-table build. -/
def mortonToIndex (d morton : Nat) : Index d := Morton.decodeLut d morton

/-- `convert::nodeIndexToMorton` (index_conversions.h:192-196); 64-bit shift, height ≥ 0. -/
def nodeIndexToMorton {d : Nat} (n : NdtreeIndex d) : Nat :=
  (indexToMorton n.position <<< (n.height.toNat * d)) % 2 ^ 64

/-- Terms of `convert::indexToLinearIndex` (index_conversions.h:85-93): the dot product of
`pow_sequence` with the coordinates. -/
def indexToLinearIndex (cellsPerSide : Nat) {d : Nat} (index : Index d) : Int :=
  (List.finRange d).foldl (fun acc i => acc + (powSequence cellsPerSide i.val : Int) * index i) 0

/-- `convert::linearIndexToIndex` (index_conversions.h:95-106). -/
def linearIndexToIndex (cellsPerSide d : Nat) (linear : Nat) : Index d :=
  fun i => ((linear / powSequence cellsPerSide i.val % cellsPerSide : Nat) : Int)

/-- `DenseBlockHash::indexToBlockIndex` (data_structure/impl/dense_block_hash_inl.h:144-149) and
`HashedWaveletOctree::indexToBlockIndex` position part: arithmetic shift. -/
def indexToBlockIndex {d : Nat} (cellsPerSideLog2 : Nat) (index : Index d) : Index d :=
  fun i => divExp2Floor (index i) cellsPerSideLog2

/-- `DenseBlockHash::indexToCellIndex` (data_structure/impl/dense_block_hash_inl.h:151-156): mask. -/
def indexToCellIndex {d : Nat} (cellsPerSideLog2 : Nat) (index : Index d) : Index d :=
  fun i => divExp2FloorRemainder (index i) cellsPerSideLog2

/-- `DenseBlockHash::cellAndBlockIndexToIndex` (data_structure/impl/dense_block_hash_inl.h:158-163). -/
def cellAndBlockIndexToIndex {d : Nat} (cellsPerSide : Nat) (block cell : Index d) : Index d :=
  fun i => (cellsPerSide : Int) * block i + cell i

end Wavemap
