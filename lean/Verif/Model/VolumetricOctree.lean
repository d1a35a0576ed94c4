import Verif.Model.Wavelet
/-!
# The volumetric octree

Models `library/cpp/include/wavemap/core/map/volumetric_octree.h`, `map/impl/volumetric_octree_inl.h` and
`library/cpp/src/core/map/volumetric_octree.cc`. The tree is an `Octree<FloatingPoint>`; values are exact rationals.
-/
namespace Wavemap
open NdtreeIndex

/-- `Octree<FloatingPoint>::NodeType` (volumetric_octree.h:50-51). -/
abbrev VTree := NTree (2 ^ 3) ℚ

/-- `constants<FloatingPoint>::kEpsilon` (utils/data/constants.h:15). -/
def kEpsilon : ℚ := 1 / 1000000

namespace VTree

/-- `child ? child->data() : 0.f` (volumetric_octree.cc:52, 62). -/
def dataOr0 (t : VTree) : ℚ := (t.data?).getD 0

/-- Lines 49-76 of volumetric_octree.cc: merge the children `ch` of a node with value `v` into it if they are all
leaves with the same value. The loop that compares the children stops at the first difference; only its verdict
matters. -/
def mergeChildren (lo hi v : ℚ) (ch : Fin (2 ^ 3) → VTree) : VTree :=
  let first := clamp lo hi (v + dataOr0 (ch ⟨0, by decide⟩))
  if (List.finRange (2 ^ 3)).all fun i =>
      !(ch i).hasChildrenArray && !decide (kEpsilon < |dataOr0 (ch i) - first|) then .leaf first
  else .node 0 ch

/-- `recursive_fn` of `prune` (volumetric_octree.cc:31-81); arguments: `parent_value` and the node; result: the node
afterwards. A missing child is only allocated when the node's own value is not (almost) zero; the recursion on
such a fresh node, which has value 0 and no children, just stores the clamped value. -/
def prune (lo hi : ℚ) : ℚ → VTree → VTree
  | _, .nil => .nil
  | p, .leaf a => .leaf (clamp lo hi (p + a))
  | p, .node a ch =>
    mergeChildren lo hi (p + a) fun i =>
      if (ch i).isNil then (if kEpsilon < |p + a| then .leaf (clamp lo hi (p + a + 0)) else .nil)
      else prune lo hi (p + a) (ch i)

/-- The loop of `forEachLeaf` (volumetric_octree.cc:127-150), starting with one stack element, with internal
indices: popping an element visits its missing children in order and pushes the others, so they are processed
completely, last child first. -/
def leaves : VTree → NdtreeIndex 3 → ℚ → List (NdtreeIndex 3 × ℚ)
  | .nil, _, _ => []
  | .leaf a, n, p => [(n, p + a)]
  | .node a ch, n, p =>
    ((List.finRange (2 ^ 3)).flatMap fun c => if (ch c).isNil then [(n.computeChildIndex c.val, p + a)] else [])
    ++ ((List.finRange (2 ^ 3)).reverse.flatMap fun c =>
      if (ch c).isNil then [] else leaves (ch c) (n.computeChildIndex c.val) (p + a))

end VTree

/-- `VolumetricOctreeConfig` (volumetric_octree.h:17-43). -/
structure VolumetricOctreeConfig where
  minCellWidth : ℚ
  minLogOdds : ℚ
  maxLogOdds : ℚ
  treeHeight : Nat

/-- `VolumetricOctreeConfig::isValid` (volumetric_octree.cc:14-22). -/
def VolumetricOctreeConfig.isValid (c : VolumetricOctreeConfig) : Bool :=
  decide (0 < c.minCellWidth) && decide (c.minLogOdds < c.maxLogOdds) && decide (0 < c.treeHeight)

/-- `VolumetricOctree` (volumetric_octree.h:45-130). -/
structure VolumetricOctree where
  config : VolumetricOctreeConfig
  root : VTree

namespace VolumetricOctree

/-- Constructor (volumetric_octree.h:55-56, 97): root node with value 0. -/
def create (config : VolumetricOctreeConfig) : VolumetricOctree := ⟨config, .leaf 0⟩

/-- `root_index_offset_` (volumetric_octree.h:102-105). -/
def rootIndexOffset (m : VolumetricOctree) : Index 3 :=
  nodeIndexToMinCornerIndex ⟨(m.config.treeHeight : Int) - 1, fun _ => 1⟩

/-- `toInternal(Index3D)` (volumetric_octree.h:107-110). -/
def toInternalCell (m : VolumetricOctree) (i : Index 3) : NdtreeIndex 3 :=
  indexAndHeightToNodeIndex (fun k => i k + m.rootIndexOffset k) 0

/-- `toInternal(OctreeIndex)` (volumetric_octree.h:111-116). -/
def toInternal (m : VolumetricOctree) (n : NdtreeIndex 3) : NdtreeIndex 3 :=
  ⟨n.height, fun k => n.position k + divExp2Floor (m.rootIndexOffset k) n.height.toNat⟩

/-- `toExternalNodeIndex` (volumetric_octree.h:120-125). -/
def toExternalNodeIndex (m : VolumetricOctree) (n : NdtreeIndex 3) : NdtreeIndex 3 :=
  ⟨n.height, fun k => n.position k - divExp2Floor (m.rootIndexOffset k) n.height.toNat⟩

/-- `getDeepestNodeAtIndex` (volumetric_octree_inl.h:64-80). -/
def getDeepestNodeAtIndex (m : VolumetricOctree) (i : Index 3) : VTree :=
  (m.root.descendOrAncestor (nodePath m.config.treeHeight (m.toInternalCell i))).1

/-- `getCellValue` (volumetric_octree_inl.h:29-36). -/
def getCellValue (m : VolumetricOctree) (i : Index 3) : ℚ := VTree.dataOr0 (m.getDeepestNodeAtIndex i)

/-- `ndtree_.getOrAllocateNode(internal_index).data()` followed by an assignment `data = g(data)`
(volumetric_octree_inl.h:47-48, 60-61). -/
def writeNode (m : VolumetricOctree) (n : NdtreeIndex 3) (g : ℚ → ℚ) : VolumetricOctree :=
  let p := nodePath m.config.treeHeight (m.toInternal n)
  { m with root := (m.root.allocPath 0 p).modifyAt (fun s => s.setData (g (VTree.dataOr0 s))) p }

/-- `setCellValue(OctreeIndex)` (volumetric_octree_inl.h:44-49). -/
def setNodeValue (m : VolumetricOctree) (n : NdtreeIndex 3) (v : ℚ) : VolumetricOctree := m.writeNode n fun _ => v

/-- `setCellValue(Index3D)` (volumetric_octree_inl.h:38-42). -/
def setCellValue (m : VolumetricOctree) (i : Index 3) (v : ℚ) : VolumetricOctree :=
  m.setNodeValue (indexAndHeightToNodeIndex i 0) v

/-- `addToCellValue(OctreeIndex)` (volumetric_octree_inl.h:57-62). -/
def addToNodeValue (m : VolumetricOctree) (n : NdtreeIndex 3) (u : ℚ) : VolumetricOctree := m.writeNode n fun x => x + u

/-- `addToCellValue(Index3D)` (volumetric_octree_inl.h:51-55). -/
def addToCellValue (m : VolumetricOctree) (i : Index 3) (u : ℚ) : VolumetricOctree :=
  m.addToNodeValue (indexAndHeightToNodeIndex i 0) u

/-- `prune` (volumetric_octree.cc:30-84). -/
def prune (m : VolumetricOctree) : VolumetricOctree :=
  { m with root := VTree.prune m.config.minLogOdds m.config.maxLogOdds 0 m.root }

/-- `threshold` (volumetric_octree.cc:24-28). -/
def threshold (m : VolumetricOctree) : VolumetricOctree := m.prune

/-- `clear` (volumetric_octree.h:62, ndtree_node_inl.h:15-19). -/
def clear (m : VolumetricOctree) : VolumetricOctree := { m with root := .leaf 0 }

/-- `empty` (volumetric_octree.h:58, ndtree_node_inl.h:10-13). -/
def empty (m : VolumetricOctree) : Bool := !m.root.hasChildrenArray && !decide (VTree.dataOr0 m.root ≠ 0)

/-- `getInternalRootNodeIndex` (volumetric_octree.h:99-101). -/
def internalRoot (m : VolumetricOctree) : NdtreeIndex 3 := ⟨m.config.treeHeight, fun _ => 0⟩

/-- `forEachLeaf` (volumetric_octree.cc:116-151). -/
def forEachLeaf (m : VolumetricOctree) : List (NdtreeIndex 3 × ℚ) :=
  (m.root.leaves m.internalRoot 0).map fun e => (m.toExternalNodeIndex e.1, e.2)

/-- `getMinPossibleIndex` (volumetric_octree_inl.h:19-22). -/
def getMinPossibleIndex (m : VolumetricOctree) : Index 3 :=
  fun i => nodeIndexToMinCornerIndex m.internalRoot i - m.rootIndexOffset i

/-- `getMaxPossibleIndex` (volumetric_octree_inl.h:24-27). -/
def getMaxPossibleIndex (m : VolumetricOctree) : Index 3 :=
  fun i => nodeIndexToMaxCornerIndex m.internalRoot i - m.rootIndexOffset i

/-- `getMinIndex` (volumetric_octree.cc:86-99). For an empty map the code returns an Eigen vector that is not
initialised; the zero here stands for that unspecified value. -/
def getMinIndex (m : VolumetricOctree) : Index 3 :=
  if m.empty then fun _ => 0
  else m.forEachLeaf.foldl (fun acc e => if !isUnobserved e.2 then
    fun i => min (acc i) (nodeIndexToMinCornerIndex e.1 i) else acc) m.getMaxPossibleIndex

/-- `getMaxIndex` (volumetric_octree.cc:101-114); empty map as for `getMinIndex`. -/
def getMaxIndex (m : VolumetricOctree) : Index 3 :=
  if m.empty then fun _ => 0
  else m.forEachLeaf.foldl (fun acc e => if !isUnobserved e.2 then
    fun i => max (acc i) (nodeIndexToMaxCornerIndex e.1 i) else acc) m.getMinPossibleIndex

end VolumetricOctree
end Wavemap
