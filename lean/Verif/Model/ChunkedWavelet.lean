import Verif.Model.Wavelet
import Verif.Model.ChunkedNdtree
/-!
# HashedChunkedWaveletOctree

Models `map/hashed_chunked_wavelet_octree{,_block}.h`, `map/impl/hashed_chunked_wavelet_octree{,_block}_inl.h` (under
`library/cpp/include/wavemap/core`) and `library/cpp/src/core/map/hashed_chunked_wavelet_octree{,_block}.cc`.

The node references of the chunked octree are addresses into a store of chunks (`Chunks`), so the recursive
functions take and return the store. The C++ recursion ends because the tree is finite; here it is bounded by a
fuel argument and running out of fuel is the distinct outcome `none`. That this never happens is part of theorem
`C19_chunked_refines_hashed`. `FloatingPoint` is `ℚ`; `Time::now()` is an argument.
-/
namespace Wavemap
open Haar

/-- `kChunkHeight` (hashed_chunked_wavelet_octree_block.h:15). -/
def chunkHeight : Nat := 3

/-- `kMaxSupportedTreeHeight` (hashed_chunked_wavelet_octree_block.h:16). -/
def maxSupportedTreeHeight : Nat := 9

/-- The chunks of `OctreeType = ChunkedOctree<Coefficients::Details, kChunkHeight>`
(hashed_chunked_wavelet_octree_block.h:20). -/
abbrev WChunks := Chunks (Details 3)

namespace WChunks

/-- `node.data()` (chunked_ndtree_node_address_inl.h:98-101). -/
abbrev details (s : WChunks) (r : ChunkNode) : Details 3 := s.data zeroDetails 3 r

/-- The loop of `getCellValue` (hashed_chunked_wavelet_octree_block_inl.h:21-34). -/
def getValue (s : WChunks) : ChunkNode → ℚ → List (Fin (2 ^ 3)) → ℚ
  | _, v, [] => v
  | r, v, i :: p =>
    let v' := backwardSingleChild 3 ⟨v, details s r⟩ i
    match s.getChild 3 chunkHeight r i with
    | none => v'
    | some r' => getValue s r' v' p

/-- `current_value` after the first loop of `setCellValue` (hashed_chunked_wavelet_octree_block.cc:43-55). -/
def currentValue : WChunks → ChunkNode → ℚ → List (Fin (2 ^ 3)) → ℚ
  | _, _, v, [] => v
  | _, _, v, [_] => v
  | s, r, v, i :: i' :: p =>
    let v' := backwardSingleChild 3 ⟨v, details s r⟩ i
    let a := s.getOrAllocateChild zeroDetails 3 chunkHeight r i
    currentValue a.1 a.2 v' (i' :: p)

/-- The allocating and the updating loop of `addToCellValue` and `setCellValue`
(hashed_chunked_wavelet_octree_block.cc:45-70, 82-106), fused: the second loop pops the references pushed by the first
one in reverse order. Returns the store and the scale coefficient handed to the parent. -/
def addPath : WChunks → ChunkNode → List (Fin (2 ^ 3)) → ℚ → WChunks × ℚ
  | s, _, [], u => (s, u)
  | s, r, [i], u =>
    let p := forwardSingleChild 3 u i
    (s.setData 3 r fun k => details s r k + p.details k, p.scale)
  | s, r, i :: i' :: q, u =>
    let a := s.getOrAllocateChild zeroDetails 3 chunkHeight r i
    let x := addPath a.1 a.2 (i' :: q) u
    let p := forwardSingleChild 3 x.2 i
    (x.1.setData 3 r fun k => details x.1 r k + p.details k, p.scale)

/-- The loop over the children in `recursiveThreshold` (hashed_chunked_wavelet_octree_block.cc:158-167); `recurse` is the
recursive call. The second component is `child_scale_coefficients`. -/
def thresholdChildren (recurse : WChunks → ChunkNode → ℚ → Option (WChunks × ℚ)) (lo hi : ℚ) (r : ChunkNode) :
    List (Fin (2 ^ 3)) → WChunks × (Fin (2 ^ 3) → ℚ) → Option (WChunks × (Fin (2 ^ 3) → ℚ))
  | [], x => some x
  | i :: l, (s, v) =>
    match s.getChild 3 chunkHeight r i with
    | some r' =>
      match recurse s r' (v i) with
      | none => none
      | some (s', w) => thresholdChildren recurse lo hi r l (s', fun j => if j = i then w else v j)
    | none => thresholdChildren recurse lo hi r l (s, fun j => if j = i then clamp lo hi (v i) else v j)

/-- `recursiveThreshold` (hashed_chunked_wavelet_octree_block.cc:151-174): the store and the new scale. -/
def recThreshold (lo hi : ℚ) : Nat → WChunks → ChunkNode → ℚ → Option (WChunks × ℚ)
  | 0, _, _, _ => none
  | fuel + 1, s, r, v =>
    match thresholdChildren (recThreshold lo hi fuel) lo hi r (List.finRange (2 ^ 3))
        (s, backward 3 ⟨v, details s r⟩) with
    | none => none
    | some (s', w) =>
      let p := forward 3 w
      some (s'.setData 3 r p.details, p.scale)

/-- The loop over the children in `recursivePrune` (hashed_chunked_wavelet_octree_block.cc:179-191); the second component is
`has_at_least_one_child`. -/
def pruneChildren (recurse : WChunks → ChunkNode → Option WChunks) (r : ChunkNode) :
    List (Fin (2 ^ 3)) → WChunks × Bool → Option (WChunks × Bool)
  | [], x => some x
  | i :: l, (s, has) =>
    match s.getChild 3 chunkHeight r i with
    | some r' =>
      match recurse s r' with
      | none => none
      | some s' =>
        if !s'.hasAtLeastOneChild 3 r' && !WTree.nonzeroData WTree.pruneThreshold (details s' r') then
          pruneChildren recurse r l (s'.eraseChild zeroDetails 3 chunkHeight r i, has)
        else pruneChildren recurse r l (s', true)
    | none => pruneChildren recurse r l (s, has)

/-- `recursivePrune` (hashed_chunked_wavelet_octree_block.cc:176-193). -/
def recPrune : Nat → WChunks → ChunkNode → Option WChunks
  | 0, _, _ => none
  | fuel + 1, s, r =>
    match pruneChildren (recPrune fuel) r (List.finRange (2 ^ 3)) (s, false) with
    | none => none
    | some (s', has) => some (s'.setHasAtLeastOneChild 3 r has)

/-- The loop of `forEachLeaf` (hashed_chunked_wavelet_octree_block.cc:127-148) for one stack element and everything pushed
because of it, in visiting order (as `WTree.leaves`). -/
def leaves (enter : Int → Bool) : Nat → WChunks → ChunkNode → NdtreeIndex 3 → ℚ → Option (List (NdtreeIndex 3 × ℚ))
  | 0, _, _, _, _ => none
  | fuel + 1, s, r, n, v =>
    let vals := backward 3 ⟨v, details s r⟩
    let visited := (List.finRange (2 ^ 3)).flatMap fun i =>
      if (s.getChild 3 chunkHeight r i).isSome && enter (n.height - 1) then [] else [(n.computeChildIndex i.val, vals i)]
    match (List.finRange (2 ^ 3)).reverse.mapM fun i =>
        match s.getChild 3 chunkHeight r i with
        | some r' =>
          if enter (n.height - 1) then leaves enter fuel s r' (n.computeChildIndex i.val) (vals i) else some []
        | none => some [] with
    | none => none
    | some pushed => some (visited ++ pushed.flatten)

end WChunks

/-- `HashedChunkedWaveletOctreeBlock` (hashed_chunked_wavelet_octree_block.h:12-96). -/
structure ChunkedWaveletBlock where
  treeHeight : Nat
  minLogOdds : ℚ
  maxLogOdds : ℚ
  rootScale : ℚ
  chunks : WChunks
  needsThresholding : Bool
  needsPruning : Bool
  lastUpdated : ℚ

namespace ChunkedWaveletBlock

/-- Constructor (hashed_chunked_wavelet_octree_block.h:22-27, 81-90). -/
def create (treeHeight : Nat) (lo hi now : ℚ) : ChunkedWaveletBlock :=
  ⟨treeHeight, lo, hi, 0, .fresh zeroDetails, false, false, now⟩

/-- A bound on the recursion depth over a block's nodes.
Auxiliary: the recursions of hashed_chunked_wavelet_octree_block.cc have no counterpart of it. -/
def fuel (b : ChunkedWaveletBlock) : Nat := b.treeHeight + 1

/-- `getCellValue` (hashed_chunked_wavelet_octree_block_inl.h:21-34). -/
def getCellValue (b : ChunkedWaveletBlock) (n : NdtreeIndex 3) : ℚ :=
  b.chunks.getValue .root b.rootScale (nodePath b.treeHeight n)

/-- `setCellValue` (hashed_chunked_wavelet_octree_block.cc:34-71). -/
def setCellValue (b : ChunkedWaveletBlock) (n : NdtreeIndex 3) (v now : ℚ) : ChunkedWaveletBlock :=
  let p := nodePath b.treeHeight n
  let r := b.chunks.addPath .root p (v - b.chunks.currentValue .root b.rootScale p)
  { b with chunks := r.1, rootScale := b.rootScale + r.2, needsPruning := true, needsThresholding := true,
           lastUpdated := now }

/-- `addToCellValue` (hashed_chunked_wavelet_octree_block.cc:73-107). -/
def addToCellValue (b : ChunkedWaveletBlock) (n : NdtreeIndex 3) (u now : ℚ) : ChunkedWaveletBlock :=
  let r := b.chunks.addPath .root (nodePath b.treeHeight n) u
  { b with chunks := r.1, rootScale := b.rootScale + r.2, needsPruning := true, needsThresholding := true,
           lastUpdated := now }

/-- `threshold` (hashed_chunked_wavelet_octree_block.cc:10-16). -/
def threshold (b : ChunkedWaveletBlock) : Option ChunkedWaveletBlock :=
  if b.needsThresholding then
    match b.chunks.recThreshold b.minLogOdds b.maxLogOdds b.fuel .root b.rootScale with
    | none => none
    | some r => some { b with chunks := r.1, rootScale := r.2, needsThresholding := false }
  else some b

/-- `prune` (hashed_chunked_wavelet_octree_block.cc:18-25). -/
def prune (b : ChunkedWaveletBlock) : Option ChunkedWaveletBlock :=
  if b.needsPruning then
    match b.threshold with
    | none => none
    | some b =>
      match b.chunks.recPrune b.fuel .root with
      | none => none
      | some s => some { b with chunks := s, needsPruning := false }
  else some b

/-- `clear` (hashed_chunked_wavelet_octree_block.cc:27-32). -/
def clear (b : ChunkedWaveletBlock) (now : ℚ) : ChunkedWaveletBlock :=
  { b with rootScale := 0, chunks := .fresh zeroDetails, lastUpdated := now }

/-- `empty` (hashed_chunked_wavelet_octree_block_inl.h:7-14, chunked_ndtree.h:31,
chunked_ndtree_node_address_inl.h:82-85). -/
def empty (b : ChunkedWaveletBlock) : Bool :=
  (!b.chunks.hasAtLeastOneChild 3 .root && !WTree.anyNonzero (b.chunks.details .root)) && isUnobserved b.rootScale

/-- `forEachLeaf` (hashed_chunked_wavelet_octree_block.cc:109-149). -/
def forEachLeaf (b : ChunkedWaveletBlock) (blockIndex : Index 3) (terminationHeight : Int) :
    Option (List (NdtreeIndex 3 × ℚ)) :=
  if b.empty then some []
  else b.chunks.leaves (fun h => decide (terminationHeight < h)) (b.fuel + 1) .root ⟨b.treeHeight, blockIndex⟩ b.rootScale

end ChunkedWaveletBlock

/-- `HashedChunkedWaveletOctreeConfig` (hashed_chunked_wavelet_octree.h:20-61) has the same fields as
`HashedWaveletOctreeConfig`; `isValid` (hashed_chunked_wavelet_octree.cc:15-24) also limits the tree height. -/
def HashedWaveletOctreeConfig.isValidChunked (c : HashedWaveletOctreeConfig) : Bool :=
  c.isValid && decide (c.treeHeight ≤ maxSupportedTreeHeight)

/-- `HashedChunkedWaveletOctree` (hashed_chunked_wavelet_octree.h:63-136). -/
structure HashedChunkedWaveletOctree where
  config : HashedWaveletOctreeConfig
  blocks : SpatialHash 3 ChunkedWaveletBlock

namespace HashedChunkedWaveletOctree

/-- Constructor (hashed_chunked_wavelet_octree.h:77-79). -/
def create (config : HashedWaveletOctreeConfig) : HashedChunkedWaveletOctree := ⟨config, []⟩

/-- `getOrAllocateBlock` (hashed_chunked_wavelet_octree_inl.h:82-87). -/
def getOrAllocateBlock (m : HashedChunkedWaveletOctree) (b : Index 3) (now : ℚ) : HashedChunkedWaveletOctree :=
  let new := ChunkedWaveletBlock.create m.config.treeHeight m.config.minLogOdds m.config.maxLogOdds now
  { m with blocks := m.blocks.getOrAllocateBlock b new }

/-- `indexToBlockIndex(OctreeIndex)` (hashed_chunked_wavelet_octree_inl.h:100-105). -/
def nodeToBlockIndex (m : HashedChunkedWaveletOctree) (n : NdtreeIndex 3) : Index 3 :=
  indexToBlockIndex m.config.treeHeight (nodeIndexToMinCornerIndex n)

/-- `indexToCellIndex` (hashed_chunked_wavelet_octree_inl.h:107-114). -/
def nodeToCellIndex (m : HashedChunkedWaveletOctree) (n : NdtreeIndex 3) : NdtreeIndex 3 :=
  ⟨n.height, fun i => divExp2FloorRemainder (n.position i) ((m.config.treeHeight : Int) - n.height).toNat⟩

/-- `getCellValue(Index3D)` (hashed_chunked_wavelet_octree_inl.h:15-25). -/
def getCellValue (m : HashedChunkedWaveletOctree) (i : Index 3) : ℚ :=
  match m.blocks.getBlock (indexToBlockIndex m.config.treeHeight i) with
  | none => 0
  | some b => b.getCellValue (m.nodeToCellIndex ⟨0, i⟩)

/-- `getCellValue(OctreeIndex)` (hashed_chunked_wavelet_octree_inl.h:27-36). -/
def getNodeValue (m : HashedChunkedWaveletOctree) (n : NdtreeIndex 3) : ℚ :=
  match m.blocks.getBlock (m.nodeToBlockIndex n) with
  | none => 0
  | some b => b.getCellValue (m.nodeToCellIndex n)

/-- `setCellValue` (hashed_chunked_wavelet_octree_inl.h:38-45). -/
def setCellValue (m : HashedChunkedWaveletOctree) (i : Index 3) (v now : ℚ) : HashedChunkedWaveletOctree :=
  let k := indexToBlockIndex m.config.treeHeight i
  let m := m.getOrAllocateBlock k now
  { m with blocks := m.blocks.modifyBlock k fun b => b.setCellValue (m.nodeToCellIndex ⟨0, i⟩) v now }

/-- `addToCellValue` (hashed_chunked_wavelet_octree_inl.h:47-54). -/
def addToCellValue (m : HashedChunkedWaveletOctree) (i : Index 3) (u now : ℚ) : HashedChunkedWaveletOctree :=
  let k := indexToBlockIndex m.config.treeHeight i
  let m := m.getOrAllocateBlock k now
  { m with blocks := m.blocks.modifyBlock k fun b => b.addToCellValue (m.nodeToCellIndex ⟨0, i⟩) u now }

/-- Run a function that may fail on every block. Auxiliary: `forEachBlock` (spatial_hash_inl.h:106-113) with a visitor that writes. -/
def mapBlocksM (m : HashedChunkedWaveletOctree) (f : ChunkedWaveletBlock → Option ChunkedWaveletBlock) :
    Option HashedChunkedWaveletOctree :=
  (m.blocks.mapM fun (e : Index 3 × ChunkedWaveletBlock) => (f e.2).map fun b => (e.1, b)).map fun l => { m with blocks := l }

/-- Drop the blocks that satisfy the test. Auxiliary: `eraseBlockIf` (spatial_hash_inl.h:58-71). -/
def dropBlocks (m : HashedChunkedWaveletOctree) (f : ChunkedWaveletBlock → Bool) : HashedChunkedWaveletOctree :=
  { m with blocks := m.blocks.filter fun e => !f e.2 }

/-- `threshold` (hashed_chunked_wavelet_octree.cc:26-31). -/
def threshold (m : HashedChunkedWaveletOctree) : Option HashedChunkedWaveletOctree :=
  m.mapBlocksM fun b => b.threshold

/-- `prune` (hashed_chunked_wavelet_octree.cc:33-39). `eraseBlockIf` applies the indicator once to every block and
removes those for which it is true; the pruning of all blocks is separated from the removal here, which is the same
because the indicator looks at one block only. -/
def prune (m : HashedChunkedWaveletOctree) : Option HashedChunkedWaveletOctree :=
  (m.mapBlocksM fun b => b.prune).map fun m => m.dropBlocks fun b => b.empty

/-- `pruneSmart` (hashed_chunked_wavelet_octree.cc:41-51), separated in the same way. -/
def pruneSmart (m : HashedChunkedWaveletOctree) (now : ℚ) : Option HashedChunkedWaveletOctree :=
  (m.mapBlocksM fun b =>
    if m.config.onlyPruneBlocksIfUnusedFor < now - b.lastUpdated then b.prune else some b).map
    fun m => m.dropBlocks fun b => b.empty

/-- `eraseBlockIf` (hashed_chunked_wavelet_octree_inl.h:66-70), for an indicator that looks at the block's index only. -/
def eraseBlockIf (m : HashedChunkedWaveletOctree) (p : Index 3 → Bool) : HashedChunkedWaveletOctree :=
  { m with blocks := m.blocks.eraseBlockIf fun k b => (b, p k) }

/-- `clear` (hashed_chunked_wavelet_octree.h:87). -/
def clear (m : HashedChunkedWaveletOctree) : HashedChunkedWaveletOctree := { m with blocks := [] }

/-- `forEachLeaf` (hashed_chunked_wavelet_octree.cc:75-81). -/
def forEachLeaf (m : HashedChunkedWaveletOctree) : Option (List (NdtreeIndex 3 × ℚ)) :=
  (m.blocks.mapM fun (e : Index 3 × ChunkedWaveletBlock) => e.2.forEachLeaf e.1 0).map List.flatten

/-- `getMinIndex` (hashed_chunked_wavelet_octree.cc:64-66). -/
def getMinIndex (m : HashedChunkedWaveletOctree) : Index 3 :=
  fun i => (exp2 m.config.treeHeight : Nat) * m.blocks.getMinBlockIndex i

/-- `getMaxIndex` (hashed_chunked_wavelet_octree.cc:68-73). -/
def getMaxIndex (m : HashedChunkedWaveletOctree) : Index 3 :=
  if m.blocks.isEmpty then fun _ => 0
  else fun i => (exp2 m.config.treeHeight : Nat) * (m.blocks.getMaxBlockIndex i + 1) - 1

end HashedChunkedWaveletOctree
end Wavemap
