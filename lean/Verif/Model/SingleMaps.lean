import Verif.Model.Float32
import Verif.Model.Wavelet
/-!
# Maps in single precision

The functions of `Verif.Model.SpatialHash` and `Verif.Model.Wavelet` that compute log-odds, with every operation rounded by `r`. The library computes with `r = fl`;
`r = id` gives the exact functions (`Verif.Lemmas.SingleMaps`). Conversions of the integers 1, 2, 4 and 8 to `float` are exact.
-/
namespace Wavemap
namespace Rounded
open Haar NTree
variable (r : ℚ → ℚ)

/-- `ForwardSingleChild` (haar_transform_inl.h:68-85). -/
def forwardSingleChild (childScale : ℚ) (c : Fin (2 ^ 3)) : Parent 3 :=
  Parent.ofArray fun p =>
    r ((if parity (andNot p.val c.val) then -childScale else childScale) / (exp2 (3 - popcount p.val) : Nat))

/-- `BackwardSingleChild` (haar_transform_inl.h:141-158). -/
def backwardSingleChild (parent : Parent 3) (c : Fin (2 ^ 3)) : ℚ :=
  (List.finRange (2 ^ 3 - 1)).foldl
    (fun scale i =>
      let parentIdx := i.val + 1
      let contribution := r (parent.details i / (exp2 (popcount parentIdx) : Nat))
      r (scale + (if parity (andNot parentIdx c.val) then -contribution else contribution)))
    parent.scale

/-- The loop of `getCellValue` (wavelet_octree_inl.h:56-66, hashed_wavelet_octree_block_inl.h:25-32). -/
def getValue : WTree → ℚ → List (Fin (2 ^ 3)) → ℚ
  | _, v, [] => v
  | t, v, c :: p =>
    if t.isNil then v
    else getValue (t.child c) (backwardSingleChild r ⟨v, WTree.details t⟩ c) p

/-- The two loops of `addToCellValue` (wavelet_octree_inl.h:122-146, hashed_wavelet_octree_block.cc:79-105), fused as in `WTree.addPath`. The details are added with
`operator+=` (haar_coefficients.h:25-34), element by element. -/
def addPath : WTree → List (Fin (2 ^ 3)) → ℚ → WTree × ℚ
  | t, [], u => (t, u)
  | t, [c], u =>
    let p := forwardSingleChild r u c
    (t.withDetails fun i => r (WTree.details t i + p.details i), p.scale)
  | t, c :: c' :: q, u =>
    let s := addPath (t.getOrAllocateChild c zeroDetails) (c' :: q) u
    let p := forwardSingleChild r s.2 c
    (WTree.withDetails (t.setChild c s.1) fun i => r (WTree.details t i + p.details i), p.scale)

/-- `WaveletOctree::getCellValue(OctreeIndex)` (wavelet_octree_inl.h:50-67). -/
def getNodeValue (m : WaveletOctree) (n : NdtreeIndex 3) : ℚ := getValue r m.root m.rootScale (m.path n)

/-- `WaveletOctree::getCellValue(Index3D)` (wavelet_octree_inl.h:45-48). -/
def getCellValue (m : WaveletOctree) (i : Index 3) : ℚ := getNodeValue r m (indexAndHeightToNodeIndex i 0)

/-- `WaveletOctree::addToCellValue(OctreeIndex)` (wavelet_octree_inl.h:117-148). -/
def addToNodeValue (m : WaveletOctree) (n : NdtreeIndex 3) (u : ℚ) : WaveletOctree :=
  let s := addPath r m.root (m.path n) u
  { m with root := s.1, rootScale := r (m.rootScale + s.2) }

/-- `WaveletOctree::addToCellValue(Index3D)` (wavelet_octree_inl.h:111-115). -/
def addToCellValue (m : WaveletOctree) (i : Index 3) (u : ℚ) : WaveletOctree :=
  addToNodeValue r m (indexAndHeightToNodeIndex i 0) u

/-- `HashedWaveletOctreeBlock::getCellValue` (hashed_wavelet_octree_block_inl.h:20-33). -/
def blockValue (b : WaveletBlock) (n : NdtreeIndex 3) : ℚ := getValue r b.root b.rootScale (nodePath b.treeHeight n)

/-- `HashedWaveletOctreeBlock::addToCellValue` (hashed_wavelet_octree_block.cc:72-106). -/
def blockAdd (b : WaveletBlock) (n : NdtreeIndex 3) (u now : ℚ) : WaveletBlock :=
  let s := addPath r b.root (nodePath b.treeHeight n) u
  { b with root := s.1, rootScale := r (b.rootScale + s.2), needsPruning := true, needsThresholding := true, lastUpdated := now }

/-- `HashedWaveletOctree::getCellValue(Index3D)` (hashed_wavelet_octree_inl.h:15-25). -/
def hashedValue (m : HashedWaveletOctree) (i : Index 3) : ℚ :=
  match m.blocks.getBlock (indexToBlockIndex m.config.treeHeight i) with
  | none => 0
  | some b => blockValue r b (m.nodeToCellIndex ⟨0, i⟩)

/-- `HashedWaveletOctree::addToCellValue` (hashed_wavelet_octree_inl.h:47-54). -/
def hashedAdd (m : HashedWaveletOctree) (i : Index 3) (u now : ℚ) : HashedWaveletOctree :=
  let k := indexToBlockIndex m.config.treeHeight i
  let m := m.getOrAllocateBlock k now
  { m with blocks := m.blocks.modifyBlock k fun b => blockAdd r b (m.nodeToCellIndex ⟨0, i⟩) u now }

/-- One beam of the in-place forward lifting step (haar_transform_inl.h:15-37). -/
def forwardBeam (dimIdx : Nat) (a : Coeffs 3) (beam : Nat) : Coeffs 3 :=
  let s := squeezeIn beam false dimIdx
  let t := squeezeIn beam true dimIdx
  let a := set a t (r (getLt a t - getLt a s))
  set a s (r (getLt a s + r (1 / 2 * getLt a t)))

/-- `ForwardLifted` (haar_transform_inl.h:8-40), which `HaarTransform<ValueT, 3>::forward` calls. -/
def forward (children : Coeffs 3) : Parent 3 :=
  Parent.ofArray <| (List.range 3).foldl (fun a dimIdx => (List.range (exp2 2)).foldl (forwardBeam r dimIdx) a) children

/-- One beam of the in-place inverse lifting step (haar_transform_inl.h:94-113). -/
def backwardBeam (dimIdx : Nat) (a : Coeffs 3) (beam : Nat) : Coeffs 3 :=
  let s := squeezeIn beam false dimIdx
  let t := squeezeIn beam true dimIdx
  let a := set a s (r (getLt a s - r (1 / 2 * getLt a t)))
  set a t (r (getLt a t + getLt a s))

/-- `BackwardLifted` (haar_transform_inl.h:87-116), which `HaarTransform<ValueT, 3>::backward` calls. -/
def backward (parent : Parent 3) : Coeffs 3 :=
  (List.range 3).foldl (fun a dimIdx => (List.range (exp2 2)).foldl (backwardBeam r dimIdx) a) parent.get

/-- `HashedWaveletOctreeBlock::recursiveThreshold` (hashed_wavelet_octree_block.cc:150-174). -/
def recThreshold (lo hi : ℚ) : WTree → ℚ → WTree × ℚ
  | .nil, s => (.nil, clamp lo hi s)
  | .leaf a, s =>
    let p := forward r fun c => clamp lo hi (backward r ⟨s, a⟩ c)
    (.leaf p.details, p.scale)
  | .node a ch, s =>
    let vals := backward r ⟨s, a⟩
    let p := forward r fun c => (recThreshold lo hi (ch c) (vals c)).2
    (.node p.details fun c => (recThreshold lo hi (ch c) (vals c)).1, p.scale)

/-- `HashedWaveletOctreeBlock::threshold` (hashed_wavelet_octree_block.cc:9-15). -/
def blockThreshold (b : WaveletBlock) : WaveletBlock :=
  if b.needsThresholding then
    let s := recThreshold r b.minLogOdds b.maxLogOdds b.root b.rootScale
    { b with root := s.1, rootScale := s.2, needsThresholding := false }
  else b

/-- `HashedWaveletOctree::threshold` (hashed_wavelet_octree.cc:25-30). -/
def hashedThreshold (m : HashedWaveletOctree) : HashedWaveletOctree := { m with blocks := m.blocks.mapBlocks fun _ b => blockThreshold r b }

/-- `WaveletOctree::recursiveThreshold` (wavelet_octree.cc:105-126): new node and the excess of its scale. The updates are subtracted with `operator-=`
(haar_coefficients.h:35-44), element by element. -/
def recThresholdDelta (lo hi : ℚ) : WTree → ℚ → WTree × ℚ
  | .nil, s => (.nil, r (s - clamp lo hi s))
  | .leaf a, s =>
    let vals := backward r ⟨s, a⟩
    let p := forward r fun c => r (vals c - clamp lo hi (vals c))
    (.leaf fun i => r (a i - p.details i), p.scale)
  | .node a ch, s =>
    let vals := backward r ⟨s, a⟩
    let p := forward r fun c => (recThresholdDelta lo hi (ch c) (vals c)).2
    (.node (fun i => r (a i - p.details i)) fun c => (recThresholdDelta lo hi (ch c) (vals c)).1, p.scale)

/-- `WaveletOctree::threshold` (wavelet_octree.cc:24-27). -/
def threshold (m : WaveletOctree) : WaveletOctree :=
  let s := recThresholdDelta r m.config.minLogOdds m.config.maxLogOdds m.root m.rootScale
  { m with root := s.1, rootScale := r (m.rootScale - s.2) }

/-- Whether the parent keeps a (pruned) child (hashed_wavelet_octree_block.cc:184-189, wavelet_octree.cc:139-144): the literal `1e-3f` is rounded too. -/
def keepChild (t : WTree) : Bool := !t.isNil && (t.hasChildrenArray || WTree.nonzeroData (r (1 / 1000)) (WTree.details t))

/-- `HashedWaveletOctreeBlock::recursivePrune` (hashed_wavelet_octree_block.cc:176-195). -/
def recPrune : WTree → WTree
  | .nil => .nil
  | .leaf a => .leaf a
  | .node a ch =>
    if (List.finRange (2 ^ 3)).any fun c => keepChild r (recPrune (ch c)) then
      .node a fun c => if keepChild r (recPrune (ch c)) then recPrune (ch c) else .nil
    else .leaf a

/-- `WaveletOctree::recursivePrune` (wavelet_octree.cc:128-159): thresholds and prunes in one pass. -/
def recPruneDelta (lo hi : ℚ) : WTree → ℚ → WTree × ℚ
  | .nil, s => (.nil, r (s - clamp lo hi s))
  | .leaf a, s =>
    let vals := backward r ⟨s, a⟩
    let p := forward r fun c => r (vals c - clamp lo hi (vals c))
    (.leaf fun i => r (a i - p.details i), p.scale)
  | .node a ch, s =>
    let vals := backward r ⟨s, a⟩
    let p := forward r fun c => (recPruneDelta lo hi (ch c) (vals c)).2
    let a' := fun i => r (a i - p.details i)
    if (List.finRange (2 ^ 3)).any fun c => keepChild r (recPruneDelta lo hi (ch c) (vals c)).1 then
      (.node a' fun c =>
        if keepChild r (recPruneDelta lo hi (ch c) (vals c)).1 then (recPruneDelta lo hi (ch c) (vals c)).1
        else .nil, p.scale)
    else (.leaf a', p.scale)

/-- `WaveletOctree::prune` (wavelet_octree.cc:29-32). -/
def prune (m : WaveletOctree) : WaveletOctree :=
  let s := recPruneDelta r m.config.minLogOdds m.config.maxLogOdds m.root m.rootScale
  { m with root := s.1, rootScale := r (m.rootScale - s.2) }

/-- `HashedWaveletOctreeBlock::prune` (hashed_wavelet_octree_block.cc:17-24). -/
def blockPrune (b : WaveletBlock) : WaveletBlock :=
  if b.needsPruning then
    let b := blockThreshold r b
    { b with root := recPrune r b.root, needsPruning := false }
  else b

/-- `HashedWaveletOctreeBlock::empty` (hashed_wavelet_octree_block_inl.h:7-14) with `isUnobserved` (occupancy_classifier_inl.h:58-61), whose threshold is the literal `1e-3f`
(occupancy_classifier.h:43). -/
def blockEmpty (b : WaveletBlock) : Bool := b.root.nodeEmpty && decide (|b.rootScale| < r (1 / 1000))

/-- `HashedWaveletOctree::prune` (hashed_wavelet_octree.cc:32-38). -/
def hashedPrune (m : HashedWaveletOctree) : HashedWaveletOctree :=
  { m with blocks := m.blocks.eraseBlockIf fun _ b => (blockPrune r b, blockEmpty r (blockPrune r b)) }

/-- The first half of the indicator of `pruneSmart` (hashed_wavelet_octree.cc:43-47). Times are exact. -/
def blockPruneIf (unusedFor now : ℚ) (b : WaveletBlock) : WaveletBlock := if unusedFor < now - b.lastUpdated then blockPrune r b else b

/-- `HashedWaveletOctree::pruneSmart` (hashed_wavelet_octree.cc:40-50). -/
def hashedPruneSmart (m : HashedWaveletOctree) (now : ℚ) : HashedWaveletOctree :=
  { m with blocks := m.blocks.eraseBlockIf fun _ b =>
      (blockPruneIf r m.config.onlyPruneBlocksIfUnusedFor now b, blockEmpty r (blockPruneIf r m.config.onlyPruneBlocksIfUnusedFor now b)) }

/-- `HashedBlocks::addToCellValue` (hashed_blocks_inl.h:21-25), `clampedAdd` (map_base.h:124-126). Clamping is exact. -/
def hashedBlocksAdd (m : HashedBlocks) (index : Index 3) (update : ℚ) : HashedBlocks :=
  { m with hash := m.hash.updateValue index fun v => clamp m.config.minLogOdds m.config.maxLogOdds (r (v + update)) }

end Rounded
end Wavemap
