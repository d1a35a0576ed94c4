import Verif.Model.WaveletIntegrator
import Verif.Model.ChunkedWavelet
/-!
# The hashed chunked wavelet integrator

Models `integrator/projective/coarse_to_fine/hashed_chunked_wavelet_integrator.{h,cc}` and
`impl/hashed_chunked_wavelet_integrator_inl.h` (under `library/cpp/{include/wavemap,src}/core`), the integrator used for the default map type.
What a measurement says about a node is given by `Scan`, as for the other integrators. The recursion is bounded by a fuel argument; running out is
the outcome `none`, which does not happen (`C44_chunked_terminates`).
-/
namespace Wavemap
open Haar

/-- `kNoiseThreshold` (hashed_chunked_wavelet_integrator.h:51), as an exact rational. -/
def chunkedNoise : ℚ := 1 / 1000

/-- One value in `updateLeavesBatch` (hashed_chunked_wavelet_integrator_inl.h:62-75): the update is added, then two conditional assignments limit
the result. -/
def leafUpdate (scan : Scan) (lo hi : ℚ) (n : NdtreeIndex 3) (v : ℚ) : ℚ :=
  let v := scan.sample n + v
  let v := if v < lo - chunkedNoise then lo - chunkedNoise else v
  if hi + chunkedNoise < v then hi + chunkedNoise else v

/-- `updateLeavesBatch` (hashed_chunked_wavelet_integrator_inl.h:40-82): the new value and details of the parent. -/
def leavesBatch (scan : Scan) (lo hi : ℚ) (n : NdtreeIndex 3) (v : ℚ) (details : Details 3) : Parent 3 :=
  let values := backward 3 ⟨v, details⟩
  forward 3 fun c => leafUpdate scan lo hi (n.computeChildIndex c.val) (values c)

namespace WChunks

/-- The loop over the children in `updateNodeRecursive` (hashed_chunked_wavelet_integrator.cc:95-157) of the node with reference `r` and index `n`:
the store, `child_values` and `block_needs_thresholding`. `recurse` is the recursive call. -/
def updateChildren (recurse : WChunks → ChunkNode → NdtreeIndex 3 → ℚ → Bool → Option (WChunks × ℚ × Bool)) (scan : Scan) (lo hi : ℚ) (termination : Int)
    (r : ChunkNode) (n : NdtreeIndex 3) : List (Fin (2 ^ 3)) → WChunks × Coeffs 3 × Bool → Option (WChunks × Coeffs 3 × Bool)
  | [], x => some x
  | c :: l, (s, v, thr) =>
    let child := n.computeChildIndex c.val
    if scan.updateType child = .fullyUnobserved then updateChildren recurse scan lo hi termination r n l (s, v, thr)
    else if scan.updateType child ≠ .possiblyOccupied ∧ v c < lo + chunkedNoise then
      updateChildren recurse scan lo hi termination r n l (s, v, thr)
    else if scan.coarseEnough (scan.updateType child) child then
      updateChildren recurse scan lo hi termination r n l (s, fun c' => if c' = c then v c + scan.sample child else v c', true)
    else
      let a := s.getOrAllocateChild zeroDetails 3 chunkHeight r c
      if child.height ≤ termination + 1 then
        let p := leavesBatch scan lo hi child (v c) (details a.1 a.2)
        updateChildren recurse scan lo hi termination r n l (a.1.setData 3 a.2 p.details, fun c' => if c' = c then p.scale else v c', thr)
      else
        match recurse a.1 a.2 child (v c) thr with
        | none => none
        | some (s', w, thr') => updateChildren recurse scan lo hi termination r n l (s', fun c' => if c' = c then w else v c', thr')

/-- `updateNodeRecursive` (hashed_chunked_wavelet_integrator.cc:85-162): the store, the node's new value and `block_needs_thresholding`. -/
def updateNode (scan : Scan) (lo hi : ℚ) (termination : Int) : Nat → WChunks → ChunkNode → NdtreeIndex 3 → ℚ → Bool → Option (WChunks × ℚ × Bool)
  | 0, _, _, _, _, _ => none
  | fuel + 1, s, r, n, v, thr =>
    match updateChildren (updateNode scan lo hi termination fuel) scan lo hi termination r n (List.finRange (2 ^ 3))
        (s, backward 3 ⟨v, details s r⟩, thr) with
    | none => none
    | some (s', w, thr') =>
      let p := forward 3 w
      some (s'.setData 3 r p.details, p.scale, thr')

end WChunks

/-- `updateBlock` (hashed_chunked_wavelet_integrator.cc:71-83). -/
def ChunkedWaveletBlock.update (scan : Scan) (config : HashedWaveletOctreeConfig) (b : ChunkedWaveletBlock) (k : Index 3) (now : ℚ) :
    Option ChunkedWaveletBlock :=
  (b.chunks.updateNode scan config.minLogOdds config.maxLogOdds (scan.terminationHeight config.minCellWidth) b.fuel .root ⟨config.treeHeight, k⟩
      b.rootScale b.needsThresholding).map fun r =>
    { b with chunks := r.1, rootScale := r.2.1, needsThresholding := r.2.2, needsPruning := true, lastUpdated := now }

namespace HashedChunkedWaveletOctree

/-- The test of a block in `recursiveTester` (hashed_chunked_wavelet_integrator_inl.h:25-31). -/
def worthUpdating (m : HashedChunkedWaveletOctree) (k : Index 3) : Bool :=
  match m.blocks.getBlock k with
  | none => false
  | some b => decide (m.config.minLogOdds + chunkedNoise ≤ b.rootScale)

/-- `blocks_to_update` (hashed_chunked_wavelet_integrator.cc:21-32). -/
def blocksToUpdate (m : HashedChunkedWaveletOctree) (scan : Scan) : Option (List (Index 3)) :=
  m.config.blockJobs scan m.worthUpdating

/-- The task for one block (hashed_chunked_wavelet_integrator.cc:41-45). -/
def updateTask (scan : Scan) (stamp : Index 3 → ℚ) (m : HashedChunkedWaveletOctree) (k : Index 3) : Option HashedChunkedWaveletOctree :=
  match m.blocks.getBlock k with
  | none => some m
  | some b => (b.update scan m.config k (stamp k)).map fun b' => { m with blocks := m.blocks.modifyBlock k fun _ => b' }

/-- `updateMap` (hashed_chunked_wavelet_integrator.cc:11-48); see `HashedWaveletOctree.updateMap` for `schedule`, `now` and `stamp`. -/
def updateMap (scan : Scan) (schedule : List (Index 3) → List (Index 3)) (now : ℚ) (stamp : Index 3 → ℚ) (m : HashedChunkedWaveletOctree) :
    Option HashedChunkedWaveletOctree := do
  let jobs ← m.blocksToUpdate scan
  let m := jobs.foldl (fun m k => m.getOrAllocateBlock k now) m
  (schedule jobs).foldlM (updateTask scan stamp) m

end HashedChunkedWaveletOctree
end Wavemap
