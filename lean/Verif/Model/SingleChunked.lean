import Verif.Model.SingleMaps
import Verif.Model.ChunkedWavelet
/-!
# The chunked wavelet octree in single precision

The functions of `Verif.Model.ChunkedWavelet` that compute log-odds, with every operation rounded by `q`. The library computes with `q = fl`. Setting a cell is added to the plain
wavelet octrees of `Verif.Model.SingleMaps` as well.
-/
namespace Wavemap
namespace Rounded
open Haar NTree
variable (q : ℚ → ℚ)

/-! ## Setting cells of the plain map -/

/-- `current_value` after the first loop of `setCellValue` (hashed_wavelet_octree_block.cc:43-57), as `WTree.currentValue`. -/
def currentValue : WTree → ℚ → List (Fin (2 ^ 3)) → ℚ
  | _, v, [] => v
  | _, v, [_] => v
  | t, v, c :: c' :: p => currentValue (t.getOrAllocateChild c zeroDetails) (backwardSingleChild q ⟨v, WTree.details t⟩ c) (c' :: p)

/-- `HashedWaveletOctreeBlock::setCellValue` (hashed_wavelet_octree_block.cc:33-70). -/
def blockSet (b : WaveletBlock) (n : NdtreeIndex 3) (v now : ℚ) : WaveletBlock :=
  blockAdd q b n (q (v - currentValue q b.root b.rootScale (nodePath b.treeHeight n))) now

/-- `HashedWaveletOctree::setCellValue` (hashed_wavelet_octree_inl.h:38-45). -/
def hashedSet (m : HashedWaveletOctree) (i : Index 3) (v now : ℚ) : HashedWaveletOctree :=
  let k := indexToBlockIndex m.config.treeHeight i
  let m := m.getOrAllocateBlock k now
  { m with blocks := m.blocks.modifyBlock k fun b => blockSet q b (m.nodeToCellIndex ⟨0, i⟩) v now }

/-! ## The chunked map -/

namespace Chunked

/-- The loop of `getCellValue` (hashed_chunked_wavelet_octree_block_inl.h:21-34). -/
def getValue (s : WChunks) : ChunkNode → ℚ → List (Fin (2 ^ 3)) → ℚ
  | _, v, [] => v
  | r, v, i :: p =>
    let v' := backwardSingleChild q ⟨v, s.details r⟩ i
    match s.getChild 3 chunkHeight r i with
    | none => v'
    | some r' => getValue s r' v' p

/-- `current_value` after the first loop of `setCellValue` (hashed_chunked_wavelet_octree_block.cc:43-55). -/
def currentValue : WChunks → ChunkNode → ℚ → List (Fin (2 ^ 3)) → ℚ
  | _, _, v, [] => v
  | _, _, v, [_] => v
  | s, r, v, i :: i' :: p =>
    let v' := backwardSingleChild q ⟨v, s.details r⟩ i
    let a := s.getOrAllocateChild zeroDetails 3 chunkHeight r i
    currentValue a.1 a.2 v' (i' :: p)

/-- The loops of `addToCellValue` and `setCellValue` (hashed_chunked_wavelet_octree_block.cc:45-70, 82-106), fused as in `WChunks.addPath`. -/
def addPath : WChunks → ChunkNode → List (Fin (2 ^ 3)) → ℚ → WChunks × ℚ
  | s, _, [], u => (s, u)
  | s, r, [i], u =>
    let p := forwardSingleChild q u i
    (s.setData 3 r fun k => q (s.details r k + p.details k), p.scale)
  | s, r, i :: i' :: l, u =>
    let a := s.getOrAllocateChild zeroDetails 3 chunkHeight r i
    let x := addPath a.1 a.2 (i' :: l) u
    let p := forwardSingleChild q x.2 i
    (x.1.setData 3 r fun k => q (x.1.details r k + p.details k), p.scale)

/-- `recursiveThreshold` (hashed_chunked_wavelet_octree_block.cc:151-174); the loop over the children computes nothing but clamps, which are exact. -/
def recThreshold (lo hi : ℚ) : Nat → WChunks → ChunkNode → ℚ → Option (WChunks × ℚ)
  | 0, _, _, _ => none
  | fuel + 1, s, r, v =>
    match WChunks.thresholdChildren (recThreshold lo hi fuel) lo hi r (List.finRange (2 ^ 3)) (s, backward q ⟨v, s.details r⟩) with
    | none => none
    | some (s', w) =>
      let p := forward q w
      some (s'.setData 3 r p.details, p.scale)

/-- The loop over the children in `recursivePrune` (hashed_chunked_wavelet_octree_block.cc:179-191): the literal `1e-3f` is rounded. -/
def pruneChildren (recurse : WChunks → ChunkNode → Option WChunks) (r : ChunkNode) :
    List (Fin (2 ^ 3)) → WChunks × Bool → Option (WChunks × Bool)
  | [], x => some x
  | i :: l, (s, has) =>
    match s.getChild 3 chunkHeight r i with
    | some r' =>
      match recurse s r' with
      | none => none
      | some s' =>
        if !s'.hasAtLeastOneChild 3 r' && !WTree.nonzeroData (q (1 / 1000)) (WChunks.details s' r') then
          pruneChildren recurse r l (s'.eraseChild zeroDetails 3 chunkHeight r i, has)
        else pruneChildren recurse r l (s', true)
    | none => pruneChildren recurse r l (s, has)

/-- `recursivePrune` (hashed_chunked_wavelet_octree_block.cc:176-193). -/
def recPrune : Nat → WChunks → ChunkNode → Option WChunks
  | 0, _, _ => none
  | fuel + 1, s, r =>
    match pruneChildren q (recPrune fuel) r (List.finRange (2 ^ 3)) (s, false) with
    | none => none
    | some (s', has) => some (s'.setHasAtLeastOneChild 3 r has)

/-- `HashedChunkedWaveletOctreeBlock::getCellValue` (hashed_chunked_wavelet_octree_block_inl.h:21-34). -/
def blockValue (b : ChunkedWaveletBlock) (n : NdtreeIndex 3) : ℚ := getValue q b.chunks .root b.rootScale (nodePath b.treeHeight n)

/-- `HashedChunkedWaveletOctreeBlock::addToCellValue` (hashed_chunked_wavelet_octree_block.cc:73-107). -/
def blockAdd (b : ChunkedWaveletBlock) (n : NdtreeIndex 3) (u now : ℚ) : ChunkedWaveletBlock :=
  let x := addPath q b.chunks .root (nodePath b.treeHeight n) u
  { b with chunks := x.1, rootScale := q (b.rootScale + x.2), needsPruning := true, needsThresholding := true, lastUpdated := now }

/-- `HashedChunkedWaveletOctreeBlock::setCellValue` (hashed_chunked_wavelet_octree_block.cc:34-71). -/
def blockSet (b : ChunkedWaveletBlock) (n : NdtreeIndex 3) (v now : ℚ) : ChunkedWaveletBlock :=
  blockAdd q b n (q (v - currentValue q b.chunks .root b.rootScale (nodePath b.treeHeight n))) now

/-- `HashedChunkedWaveletOctreeBlock::threshold` (hashed_chunked_wavelet_octree_block.cc:10-16). -/
def blockThreshold (b : ChunkedWaveletBlock) : Option ChunkedWaveletBlock :=
  if b.needsThresholding then
    match recThreshold q b.minLogOdds b.maxLogOdds b.fuel b.chunks .root b.rootScale with
    | none => none
    | some x => some { b with chunks := x.1, rootScale := x.2, needsThresholding := false }
  else some b

/-- `HashedChunkedWaveletOctreeBlock::prune` (hashed_chunked_wavelet_octree_block.cc:18-25). -/
def blockPrune (b : ChunkedWaveletBlock) : Option ChunkedWaveletBlock :=
  if b.needsPruning then
    match blockThreshold q b with
    | none => none
    | some b =>
      match recPrune q b.fuel b.chunks .root with
      | none => none
      | some s => some { b with chunks := s, needsPruning := false }
  else some b

/-- `HashedChunkedWaveletOctreeBlock::empty` (hashed_chunked_wavelet_octree_block_inl.h:7-14, chunked_ndtree.h:31, chunked_ndtree_node_address_inl.h:82-85) with the literal `1e-3f`
of `isUnobserved` (occupancy_classifier.h:43). -/
def blockEmpty (b : ChunkedWaveletBlock) : Bool :=
  (!b.chunks.hasAtLeastOneChild 3 .root && !WTree.anyNonzero (b.chunks.details .root)) && decide (|b.rootScale| < q (1 / 1000))

/-- `HashedChunkedWaveletOctree::getCellValue(Index3D)` (hashed_chunked_wavelet_octree_inl.h:15-25). -/
def hashedValue (m : HashedChunkedWaveletOctree) (i : Index 3) : ℚ :=
  match m.blocks.getBlock (indexToBlockIndex m.config.treeHeight i) with
  | none => 0
  | some b => blockValue q b (m.nodeToCellIndex ⟨0, i⟩)

/-- `HashedChunkedWaveletOctree::getCellValue(OctreeIndex)` (hashed_chunked_wavelet_octree_inl.h:27-36). -/
def hashedNodeValue (m : HashedChunkedWaveletOctree) (n : NdtreeIndex 3) : ℚ :=
  match m.blocks.getBlock (m.nodeToBlockIndex n) with
  | none => 0
  | some b => blockValue q b (m.nodeToCellIndex n)

/-- `HashedChunkedWaveletOctree::addToCellValue` (hashed_chunked_wavelet_octree_inl.h:47-54). -/
def hashedAdd (m : HashedChunkedWaveletOctree) (i : Index 3) (u now : ℚ) : HashedChunkedWaveletOctree :=
  let k := indexToBlockIndex m.config.treeHeight i
  let m := m.getOrAllocateBlock k now
  { m with blocks := m.blocks.modifyBlock k fun b => blockAdd q b (m.nodeToCellIndex ⟨0, i⟩) u now }

/-- `HashedChunkedWaveletOctree::setCellValue` (hashed_chunked_wavelet_octree_inl.h:38-45). -/
def hashedSet (m : HashedChunkedWaveletOctree) (i : Index 3) (v now : ℚ) : HashedChunkedWaveletOctree :=
  let k := indexToBlockIndex m.config.treeHeight i
  let m := m.getOrAllocateBlock k now
  { m with blocks := m.blocks.modifyBlock k fun b => blockSet q b (m.nodeToCellIndex ⟨0, i⟩) v now }

/-- `HashedChunkedWaveletOctree::threshold` (hashed_chunked_wavelet_octree.cc:26-31). -/
def hashedThreshold (m : HashedChunkedWaveletOctree) : Option HashedChunkedWaveletOctree := m.mapBlocksM fun b => blockThreshold q b

/-- `HashedChunkedWaveletOctree::prune` (hashed_chunked_wavelet_octree.cc:33-39), separated as in `HashedChunkedWaveletOctree.prune`. -/
def hashedPrune (m : HashedChunkedWaveletOctree) : Option HashedChunkedWaveletOctree :=
  (m.mapBlocksM fun b => blockPrune q b).map fun m => m.dropBlocks fun b => blockEmpty q b

/-- `HashedChunkedWaveletOctree::pruneSmart` (hashed_chunked_wavelet_octree.cc:41-51), separated in the same way. Times are exact. -/
def hashedPruneSmart (m : HashedChunkedWaveletOctree) (now : ℚ) : Option HashedChunkedWaveletOctree :=
  (m.mapBlocksM fun b => if m.config.onlyPruneBlocksIfUnusedFor < now - b.lastUpdated then blockPrune q b else some b).map
    fun m => m.dropBlocks fun b => blockEmpty q b

end Chunked

/-- `HashedWaveletOctree::getCellValue(OctreeIndex)` (hashed_wavelet_octree_inl.h:27-36). -/
def hashedNodeValue (m : HashedWaveletOctree) (n : NdtreeIndex 3) : ℚ :=
  match m.blocks.getBlock (m.nodeToBlockIndex n) with
  | none => 0
  | some b => blockValue q b (m.nodeToCellIndex n)

end Rounded
end Wavemap
