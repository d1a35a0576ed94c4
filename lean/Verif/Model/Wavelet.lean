import Verif.Model.Ndtree
import Verif.Model.Haar
import Verif.Model.SpatialHash
/-!
# Wavelet octrees

Models `map/wavelet_octree.h`, `map/impl/wavelet_octree_inl.h`, `map/hashed_wavelet_octree_block.h`,
`map/impl/hashed_wavelet_octree_block_inl.h`, `map/hashed_wavelet_octree.h`,
`map/impl/hashed_wavelet_octree_inl.h` (under `library/cpp/include/wavemap/core`) and
`library/cpp/src/core/map/{wavelet_octree,hashed_wavelet_octree_block,hashed_wavelet_octree}.cc`.

The two map types share their tree algorithms; each definition below cites both places.
`FloatingPoint` is `ℚ`. `Time::now()` is an argument.
-/
namespace Wavemap

/-- A (pointer to a) node of `Octree<Coefficients::Details>` (wavelet_octree.h, hashed_wavelet_octree_block.h). -/
abbrev WTree := NTree (2 ^ 3) (Details 3)

/-- `Coefficients::Details{}`: all zero (value-initialised `std::array`) (hashed_wavelet_octree_block.h:20-25). -/
def zeroDetails : Details 3 := fun _ => 0

namespace WTree
open Haar NTree

/-- `node->data()`. Null pointers are never dereferenced; the value for `nil` is irrelevant (ndtree_node.h:30-31). -/
def details : WTree → Details 3
  | .nil => zeroDetails
  | .leaf a => a
  | .node a _ => a

/-- `node->data() = a` for a non-null node (ndtree_node.h:30-31). -/
def withDetails (t : WTree) (a : Details 3) : WTree := t.setData a

/-- The loop of `getCellValue` (wavelet_octree_inl.h:45-67, hashed_wavelet_octree_block_inl.h:20-33):
descend while there is a node, refining the value. The two loops differ in where they test for a
missing child but perform the same steps. -/
def getValue : WTree → ℚ → List (Fin (2 ^ 3)) → ℚ
  | _, v, [] => v
  | t, v, c :: p =>
    if t.isNil then v
    else getValue (t.child c) (backwardSingleChild 3 ⟨v, details t⟩ c) p

/-- `current_value` after the first loop of `setCellValue` (wavelet_octree_inl.h:79-93,
hashed_wavelet_octree_block.cc:43-57). The loop condition `index.height + 1 < parent_height` stops one level above the
cell, so the last step of the path is not taken. Missing children are allocated with zero details. -/
def currentValue : WTree → ℚ → List (Fin (2 ^ 3)) → ℚ
  | _, v, [] => v
  | _, v, [_] => v
  | t, v, c :: c' :: p =>
    currentValue (t.getOrAllocateChild c zeroDetails) (backwardSingleChild 3 ⟨v, details t⟩ c) (c' :: p)

/-- First (allocating) and second (updating) loop of `addToCellValue` (wavelet_octree_inl.h:119-147,
hashed_wavelet_octree_block.cc:79-105), fused: the second loop pops the nodes pushed by the first one in
reverse order, i.e. it runs on the way back of the recursion. Returns the new node and the scale
coefficient handed to the parent (to `root_scale_coefficient_ +=` at the root). -/
def addPath : WTree → List (Fin (2 ^ 3)) → ℚ → WTree × ℚ
  | t, [], u => (t, u)
  | t, [c], u =>
    let p := forwardSingleChild 3 u c
    (t.withDetails fun i => details t i + p.details i, p.scale)
  | t, c :: c' :: q, u =>
    let r := addPath (t.getOrAllocateChild c zeroDetails) (c' :: q) u
    let p := forwardSingleChild 3 r.2 c
    (withDetails (t.setChild c r.1) fun i => details t i + p.details i, p.scale)

/-- `recursiveThreshold` of the hashed block (hashed_wavelet_octree_block.cc:150-174): new node and new
scale. The `nil` case is the branch for a missing child (line 164). -/
def recThreshold (lo hi : ℚ) : WTree → ℚ → WTree × ℚ
  | .nil, s => (.nil, clamp lo hi s)
  | .leaf a, s =>
    let p := forward 3 fun c => clamp lo hi (backward 3 ⟨s, a⟩ c)
    (.leaf p.details, p.scale)
  | .node a ch, s =>
    let vals := backward 3 ⟨s, a⟩
    let p := forward 3 fun c => (recThreshold lo hi (ch c) (vals c)).2
    (.node p.details fun c => (recThreshold lo hi (ch c) (vals c)).1, p.scale)

/-- `recursiveThreshold` of `WaveletOctree` (wavelet_octree.cc:105-126): works with the excess over the
bounds and subtracts it. New node and the excess scale. -/
def recThresholdDelta (lo hi : ℚ) : WTree → ℚ → WTree × ℚ
  | .nil, s => (.nil, s - clamp lo hi s)
  | .leaf a, s =>
    let vals := backward 3 ⟨s, a⟩
    let p := forward 3 fun c => vals c - clamp lo hi (vals c)
    (.leaf fun i => a i - p.details i, p.scale)
  | .node a ch, s =>
    let vals := backward 3 ⟨s, a⟩
    let p := forward 3 fun c => (recThresholdDelta lo hi (ch c) (vals c)).2
    (.node (fun i => a i - p.details i) fun c => (recThresholdDelta lo hi (ch c) (vals c)).1, p.scale)

/-- `data::is_nonzero(data, threshold)` for an array (comparisons.h:25-31). -/
def nonzeroData (threshold : ℚ) (a : Details 3) : Bool :=
  (List.finRange (2 ^ 3 - 1)).any fun i => decide (threshold < |a i|)

/-- `data::is_nonzero(data)` (comparisons.h:12-15): `data != Details{}`. -/
def anyNonzero (a : Details 3) : Bool := (List.finRange (2 ^ 3 - 1)).any fun i => decide (a i ≠ 0)

/-- `1e-3f` (hashed_wavelet_octree_block.cc:186, wavelet_octree.cc:140), as an exact rational. -/
def pruneThreshold : ℚ := 1 / 1000

/-- Whether the parent keeps a (pruned) child: the negation of the erase condition
(hashed_wavelet_octree_block.cc:184-189, wavelet_octree.cc:139-144); null children stay null. -/
def keepChild (t : WTree) : Bool :=
  !t.isNil && (t.hasChildrenArray || nonzeroData pruneThreshold (details t))

/-- `recursivePrune` of the hashed block (hashed_wavelet_octree_block.cc:176-195). -/
def recPrune : WTree → WTree
  | .nil => .nil
  | .leaf a => .leaf a
  | .node a ch =>
    if (List.finRange (2 ^ 3)).any fun c => keepChild (recPrune (ch c)) then
      .node a fun c => if keepChild (recPrune (ch c)) then recPrune (ch c) else .nil
    else .leaf a

/-- `recursivePrune` of `WaveletOctree` (wavelet_octree.cc:128-159): thresholds and prunes in one pass. -/
def recPruneDelta (lo hi : ℚ) : WTree → ℚ → WTree × ℚ
  | .nil, s => (.nil, s - clamp lo hi s)
  | .leaf a, s =>
    let vals := backward 3 ⟨s, a⟩
    let p := forward 3 fun c => vals c - clamp lo hi (vals c)
    (.leaf fun i => a i - p.details i, p.scale)
  | .node a ch, s =>
    let vals := backward 3 ⟨s, a⟩
    let p := forward 3 fun c => (recPruneDelta lo hi (ch c) (vals c)).2
    let a' := fun i => a i - p.details i
    if (List.finRange (2 ^ 3)).any fun c => keepChild (recPruneDelta lo hi (ch c) (vals c)).1 then
      (.node a' fun c =>
        if keepChild (recPruneDelta lo hi (ch c) (vals c)).1 then (recPruneDelta lo hi (ch c) (vals c)).1
        else .nil, p.scale)
    else (.leaf a', p.scale)

/-- The loop of `forEachLeaf` (hashed_wavelet_octree_block.cc:116-147, wavelet_octree.cc:76-102), starting
with one stack element: visited (index, value) pairs in order. Popping an element visits its missing
children in order and pushes the others, so they are processed completely, last child first.
`enter h` is the extra condition for pushing a child of height `h`: `termination_height < h` in the
block, always true in `WaveletOctree`. -/
def leaves (enter : Int → Bool) : WTree → NdtreeIndex 3 → ℚ → List (NdtreeIndex 3 × ℚ)
  | .nil, _, _ => []
  | .leaf a, n, s =>
    (List.finRange (2 ^ 3)).map fun c => (n.computeChildIndex c.val, backward 3 ⟨s, a⟩ c)
  | .node a ch, n, s =>
    let vals := backward 3 ⟨s, a⟩
    ((List.finRange (2 ^ 3)).flatMap fun c =>
      if !(ch c).isNil && enter (n.height - 1) then [] else [(n.computeChildIndex c.val, vals c)])
    ++ ((List.finRange (2 ^ 3)).reverse.flatMap fun c =>
      if !(ch c).isNil && enter (n.height - 1) then leaves enter (ch c) (n.computeChildIndex c.val) (vals c)
      else [])

/-- `NdtreeNode::empty` of the root (ndtree_node_inl.h:10-13). -/
def nodeEmpty (t : WTree) : Bool := !t.hasChildrenArray && !anyNonzero (details t)

end WTree

/-- `OccupancyClassifier::isUnobserved` (occupancy_classifier_inl.h:58-61), threshold `1e-3f`. -/
def isUnobserved (v : ℚ) : Bool := decide (|v| < 1 / 1000)

/-! ## WaveletOctree -/

/-- `WaveletOctreeConfig` (wavelet_octree.h). -/
structure WaveletOctreeConfig where
  minCellWidth : ℚ
  minLogOdds : ℚ
  maxLogOdds : ℚ
  treeHeight : Nat

/-- `WaveletOctreeConfig::isValid` (wavelet_octree.cc:14-22). -/
def WaveletOctreeConfig.isValid (c : WaveletOctreeConfig) : Bool :=
  decide (0 < c.minCellWidth) && decide (c.minLogOdds < c.maxLogOdds) && decide (0 < c.treeHeight)

/-- `WaveletOctree` (wavelet_octree.h:50-145). -/
structure WaveletOctree where
  config : WaveletOctreeConfig
  rootScale : ℚ
  root : WTree

namespace WaveletOctree

/-- Constructor (wavelet_octree.h:61-62, 110-111). The octree's own check limits `tree_height - 1` to 20. -/
def create (config : WaveletOctreeConfig) : WaveletOctree := ⟨config, 0, .leaf zeroDetails⟩

/-- `root_index_offset_` (wavelet_octree.h:116-119): min corner of node `{tree_height - 1, (1,1,1)}`. -/
def rootIndexOffset (m : WaveletOctree) : Index 3 :=
  nodeIndexToMinCornerIndex ⟨(m.config.treeHeight : Int) - 1, fun _ => 1⟩

/-- `toInternal(OctreeIndex)` (wavelet_octree.h:125-130). -/
def toInternal (m : WaveletOctree) (n : NdtreeIndex 3) : NdtreeIndex 3 :=
  ⟨n.height, fun i => n.position i + divExp2Floor (m.rootIndexOffset i) n.height.toNat⟩

/-- `toExternalNodeIndex` (wavelet_octree.h:134-139). -/
def toExternalNodeIndex (m : WaveletOctree) (n : NdtreeIndex 3) : NdtreeIndex 3 :=
  ⟨n.height, fun i => n.position i - divExp2Floor (m.rootIndexOffset i) n.height.toNat⟩

/-- Path from the root for a node index (wavelet_octree_inl.h:111-148). -/
def path (m : WaveletOctree) (n : NdtreeIndex 3) : List (Fin (2 ^ 3)) :=
  nodePath m.config.treeHeight (m.toInternal n)

/-- `getCellValue(OctreeIndex)` (wavelet_octree_inl.h:50-67). -/
def getNodeValue (m : WaveletOctree) (n : NdtreeIndex 3) : ℚ := m.root.getValue m.rootScale (m.path n)

/-- `getCellValue(Index3D)` (wavelet_octree_inl.h:45-48). -/
def getCellValue (m : WaveletOctree) (i : Index 3) : ℚ := m.getNodeValue (indexAndHeightToNodeIndex i 0)

/-- `addToCellValue(OctreeIndex)` (wavelet_octree_inl.h:117-148). -/
def addToNodeValue (m : WaveletOctree) (n : NdtreeIndex 3) (u : ℚ) : WaveletOctree :=
  let r := m.root.addPath (m.path n) u
  { m with root := r.1, rootScale := m.rootScale + r.2 }

/-- `addToCellValue(Index3D)` (wavelet_octree_inl.h:111-115). -/
def addToCellValue (m : WaveletOctree) (i : Index 3) (u : ℚ) : WaveletOctree :=
  m.addToNodeValue (indexAndHeightToNodeIndex i 0) u

/-- `setCellValue(OctreeIndex)` (wavelet_octree_inl.h:75-109). -/
def setNodeValue (m : WaveletOctree) (n : NdtreeIndex 3) (v : ℚ) : WaveletOctree :=
  let r := m.root.addPath (m.path n) (v - m.root.currentValue m.rootScale (m.path n))
  { m with root := r.1, rootScale := m.rootScale + r.2 }

/-- `setCellValue(Index3D)` (wavelet_octree_inl.h:69-73). -/
def setCellValue (m : WaveletOctree) (i : Index 3) (v : ℚ) : WaveletOctree :=
  m.setNodeValue (indexAndHeightToNodeIndex i 0) v

/-- `threshold` (wavelet_octree.cc:24-27). -/
def threshold (m : WaveletOctree) : WaveletOctree :=
  let r := m.root.recThresholdDelta m.config.minLogOdds m.config.maxLogOdds m.rootScale
  { m with root := r.1, rootScale := m.rootScale - r.2 }

/-- `prune` (wavelet_octree.cc:29-32). -/
def prune (m : WaveletOctree) : WaveletOctree :=
  let r := m.root.recPruneDelta m.config.minLogOdds m.config.maxLogOdds m.rootScale
  { m with root := r.1, rootScale := m.rootScale - r.2 }

/-- `clear` (wavelet_octree_inl.h:21-24). -/
def clear (m : WaveletOctree) : WaveletOctree := { m with root := .leaf zeroDetails, rootScale := 0 }

/-- `empty` (wavelet_octree_inl.h:12-19). -/
def empty (m : WaveletOctree) : Bool := m.root.nodeEmpty && isUnobserved m.rootScale

/-- `getInternalRootNodeIndex` (wavelet_octree.h:113-115). -/
def internalRoot (m : WaveletOctree) : NdtreeIndex 3 := ⟨m.config.treeHeight, fun _ => 0⟩

/-- `forEachLeaf` (wavelet_octree.cc:64-103). -/
def forEachLeaf (m : WaveletOctree) : List (NdtreeIndex 3 × ℚ) :=
  if m.empty then []
  else (m.root.leaves (fun _ => true) m.internalRoot m.rootScale).map fun e => (m.toExternalNodeIndex e.1, e.2)

/-- `getMinPossibleIndex` (wavelet_octree_inl.h:35-38). -/
def getMinPossibleIndex (m : WaveletOctree) : Index 3 :=
  fun i => nodeIndexToMinCornerIndex m.internalRoot i - m.rootIndexOffset i

/-- `getMaxPossibleIndex` (wavelet_octree_inl.h:40-43). -/
def getMaxPossibleIndex (m : WaveletOctree) : Index 3 :=
  fun i => nodeIndexToMaxCornerIndex m.internalRoot i - m.rootIndexOffset i

/-- `getMinIndex` (wavelet_octree.cc:34-47). For an empty map the code returns an Eigen vector that is not
initialised; the zero here stands for that unspecified value. -/
def getMinIndex (m : WaveletOctree) : Index 3 :=
  if m.empty then fun _ => 0
  else m.forEachLeaf.foldl (fun acc e => if !isUnobserved e.2 then
    fun i => min (acc i) (nodeIndexToMinCornerIndex e.1 i) else acc) m.getMaxPossibleIndex

/-- `getMaxIndex` (wavelet_octree.cc:49-62); empty map as for `getMinIndex`. -/
def getMaxIndex (m : WaveletOctree) : Index 3 :=
  if m.empty then fun _ => 0
  else m.forEachLeaf.foldl (fun acc e => if !isUnobserved e.2 then
    fun i => max (acc i) (nodeIndexToMaxCornerIndex e.1 i) else acc) m.getMinPossibleIndex

end WaveletOctree

/-! ## HashedWaveletOctreeBlock -/

/-- `HashedWaveletOctreeBlock` (hashed_wavelet_octree_block.h:12-86). -/
structure WaveletBlock where
  treeHeight : Nat
  minLogOdds : ℚ
  maxLogOdds : ℚ
  rootScale : ℚ
  root : WTree
  needsThresholding : Bool
  needsPruning : Bool
  lastUpdated : ℚ

namespace WaveletBlock

/-- Constructor (hashed_wavelet_octree_block.h:20-25, 72-81); `now` is `Time::now()`. -/
def create (treeHeight : Nat) (lo hi now : ℚ) : WaveletBlock :=
  ⟨treeHeight, lo, hi, 0, .leaf zeroDetails, false, false, now⟩

/-- `getCellValue` (hashed_wavelet_octree_block_inl.h:20-33). -/
def getCellValue (b : WaveletBlock) (n : NdtreeIndex 3) : ℚ :=
  b.root.getValue b.rootScale (nodePath b.treeHeight n)

/-- `setCellValue` (hashed_wavelet_octree_block.cc:33-70). -/
def setCellValue (b : WaveletBlock) (n : NdtreeIndex 3) (v now : ℚ) : WaveletBlock :=
  let p := nodePath b.treeHeight n
  let r := b.root.addPath p (v - b.root.currentValue b.rootScale p)
  { b with root := r.1, rootScale := b.rootScale + r.2, needsPruning := true, needsThresholding := true,
           lastUpdated := now }

/-- `addToCellValue` (hashed_wavelet_octree_block.cc:72-106). -/
def addToCellValue (b : WaveletBlock) (n : NdtreeIndex 3) (u now : ℚ) : WaveletBlock :=
  let r := b.root.addPath (nodePath b.treeHeight n) u
  { b with root := r.1, rootScale := b.rootScale + r.2, needsPruning := true, needsThresholding := true,
           lastUpdated := now }

/-- `threshold` (hashed_wavelet_octree_block.cc:9-15). -/
def threshold (b : WaveletBlock) : WaveletBlock :=
  if b.needsThresholding then
    let r := b.root.recThreshold b.minLogOdds b.maxLogOdds b.rootScale
    { b with root := r.1, rootScale := r.2, needsThresholding := false }
  else b

/-- `prune` (hashed_wavelet_octree_block.cc:17-24). -/
def prune (b : WaveletBlock) : WaveletBlock :=
  if b.needsPruning then
    let b := b.threshold
    { b with root := b.root.recPrune, needsPruning := false }
  else b

/-- `clear` (hashed_wavelet_octree_block.cc:26-31). -/
def clear (b : WaveletBlock) (now : ℚ) : WaveletBlock :=
  { b with rootScale := 0, root := .leaf zeroDetails, lastUpdated := now }

/-- `empty` (hashed_wavelet_octree_block_inl.h:7-14). -/
def empty (b : WaveletBlock) : Bool := b.root.nodeEmpty && isUnobserved b.rootScale

/-- `forEachLeaf` (hashed_wavelet_octree_block.cc:108-148). -/
def forEachLeaf (b : WaveletBlock) (blockIndex : Index 3) (terminationHeight : Int) : List (NdtreeIndex 3 × ℚ) :=
  if b.empty then []
  else b.root.leaves (fun h => decide (terminationHeight < h)) ⟨b.treeHeight, blockIndex⟩ b.rootScale

end WaveletBlock

/-! ## HashedWaveletOctree -/

/-- `HashedWaveletOctreeConfig` (hashed_wavelet_octree.h:19-57). -/
structure HashedWaveletOctreeConfig where
  minCellWidth : ℚ
  minLogOdds : ℚ
  maxLogOdds : ℚ
  treeHeight : Nat
  onlyPruneBlocksIfUnusedFor : ℚ

/-- `HashedWaveletOctreeConfig::isValid` (hashed_wavelet_octree.cc:15-23). -/
def HashedWaveletOctreeConfig.isValid (c : HashedWaveletOctreeConfig) : Bool :=
  decide (0 < c.minCellWidth) && decide (c.minLogOdds < c.maxLogOdds) && decide (0 < c.treeHeight)

/-- `HashedWaveletOctree` (hashed_wavelet_octree.h:59-130). -/
structure HashedWaveletOctree where
  config : HashedWaveletOctreeConfig
  blocks : SpatialHash 3 WaveletBlock

namespace HashedWaveletOctree

/-- Constructor (hashed_wavelet_octree.h:71-72). -/
def create (config : HashedWaveletOctreeConfig) : HashedWaveletOctree := ⟨config, []⟩

/-- `getOrAllocateBlock` (hashed_wavelet_octree_inl.h:80-85). -/
def getOrAllocateBlock (m : HashedWaveletOctree) (b : Index 3) (now : ℚ) : HashedWaveletOctree :=
  let new := WaveletBlock.create m.config.treeHeight m.config.minLogOdds m.config.maxLogOdds now
  { m with blocks := m.blocks.getOrAllocateBlock b new }

/-- `indexToBlockIndex(OctreeIndex)` (hashed_wavelet_octree_inl.h:97-101). -/
def nodeToBlockIndex (m : HashedWaveletOctree) (n : NdtreeIndex 3) : Index 3 :=
  indexToBlockIndex m.config.treeHeight (nodeIndexToMinCornerIndex n)

/-- `indexToCellIndex` (hashed_wavelet_octree_inl.h:103-110). -/
def nodeToCellIndex (m : HashedWaveletOctree) (n : NdtreeIndex 3) : NdtreeIndex 3 :=
  ⟨n.height, fun i => divExp2FloorRemainder (n.position i) ((m.config.treeHeight : Int) - n.height).toNat⟩

/-- `getCellValue(Index3D)` (hashed_wavelet_octree_inl.h:15-25). -/
def getCellValue (m : HashedWaveletOctree) (i : Index 3) : ℚ :=
  match m.blocks.getBlock (indexToBlockIndex m.config.treeHeight i) with
  | none => 0
  | some b => b.getCellValue (m.nodeToCellIndex ⟨0, i⟩)

/-- `getCellValue(OctreeIndex)` (hashed_wavelet_octree_inl.h:27-36). -/
def getNodeValue (m : HashedWaveletOctree) (n : NdtreeIndex 3) : ℚ :=
  match m.blocks.getBlock (m.nodeToBlockIndex n) with
  | none => 0
  | some b => b.getCellValue (m.nodeToCellIndex n)

/-- `setCellValue` (hashed_wavelet_octree_inl.h:38-45). -/
def setCellValue (m : HashedWaveletOctree) (i : Index 3) (v now : ℚ) : HashedWaveletOctree :=
  let k := indexToBlockIndex m.config.treeHeight i
  let m := m.getOrAllocateBlock k now
  { m with blocks := m.blocks.modifyBlock k fun b => b.setCellValue (m.nodeToCellIndex ⟨0, i⟩) v now }

/-- `addToCellValue` (hashed_wavelet_octree_inl.h:47-54). -/
def addToCellValue (m : HashedWaveletOctree) (i : Index 3) (u now : ℚ) : HashedWaveletOctree :=
  let k := indexToBlockIndex m.config.treeHeight i
  let m := m.getOrAllocateBlock k now
  { m with blocks := m.blocks.modifyBlock k fun b => b.addToCellValue (m.nodeToCellIndex ⟨0, i⟩) u now }

/-- `threshold` (hashed_wavelet_octree.cc:25-30). -/
def threshold (m : HashedWaveletOctree) : HashedWaveletOctree :=
  { m with blocks := m.blocks.mapBlocks fun _ b => b.threshold }

/-- `prune` (hashed_wavelet_octree.cc:32-38). -/
def prune (m : HashedWaveletOctree) : HashedWaveletOctree :=
  { m with blocks := m.blocks.eraseBlockIf fun _ b => (b.prune, b.prune.empty) }

/-- The first half of the indicator of `pruneSmart` (hashed_wavelet_octree.cc:43-47): prune the block
if it was not updated for long enough. -/
def _root_.Wavemap.WaveletBlock.pruneIf (b : WaveletBlock) (m : HashedWaveletOctree) (now : ℚ) : WaveletBlock :=
  if m.config.onlyPruneBlocksIfUnusedFor < now - b.lastUpdated then b.prune else b

/-- `pruneSmart` (hashed_wavelet_octree.cc:40-50). -/
def pruneSmart (m : HashedWaveletOctree) (now : ℚ) : HashedWaveletOctree :=
  { m with blocks := m.blocks.eraseBlockIf fun _ b => (b.pruneIf m now, (b.pruneIf m now).empty) }

/-- `eraseBlockIf` (hashed_wavelet_octree_inl.h:65-68), for an indicator that looks at the block's index only; so are
the indicators of the crop operation (crop_map_operation.cc:67-74) and of the map message reader
(map_msg_conversions.cc:403-407). -/
def eraseBlockIf (m : HashedWaveletOctree) (p : Index 3 → Bool) : HashedWaveletOctree :=
  { m with blocks := m.blocks.eraseBlockIf fun k b => (b, p k) }

/-- `clear` (hashed_wavelet_octree.h:82). -/
def clear (m : HashedWaveletOctree) : HashedWaveletOctree := { m with blocks := [] }

/-- `forEachLeaf` (hashed_wavelet_octree.cc:74-80), default termination height 0. -/
def forEachLeaf (m : HashedWaveletOctree) : List (NdtreeIndex 3 × ℚ) :=
  m.blocks.flatMap fun e => e.2.forEachLeaf e.1 0

/-- `getMinIndex` (hashed_wavelet_octree.cc:63-65). -/
def getMinIndex (m : HashedWaveletOctree) : Index 3 :=
  fun i => (exp2 m.config.treeHeight : Nat) * m.blocks.getMinBlockIndex i

/-- `getMaxIndex` (hashed_wavelet_octree.cc:67-72). -/
def getMaxIndex (m : HashedWaveletOctree) : Index 3 :=
  if m.blocks.isEmpty then fun _ => 0
  else fun i => (exp2 m.config.treeHeight : Nat) * (m.blocks.getMaxBlockIndex i + 1) - 1

end HashedWaveletOctree
end Wavemap
