import Mathlib.Data.Int.Log
import Verif.Model.Wavelet
import Verif.Model.Iterate
import Verif.Model.RangeBounds
/-!
# The hashed wavelet integrator

Models `integrator/projective/coarse_to_fine/hashed_wavelet_integrator.{h,cc}` and
`impl/hashed_wavelet_integrator_inl.h` (under `library/cpp/{include/wavemap,src}/core`).

While one measurement is integrated the range image, the pose and the settings do not change. What the integrator asks about
a node of the octree (its update type, the measurement model's update at its center, and whether the worst-case
error at its resolution is acceptable) is therefore a function of the node's index; these functions are the fields of `Scan`. The
functions themselves are modelled in `Model/RangeBounds.lean`, `Model/Measurement.lean` and `Model/Projectors.lean`.
`FloatingPoint` is `ℚ`.
-/
namespace Wavemap
open Haar

/-- One measurement, as the coarse-to-fine integrators see it (hashed_wavelet_integrator.cc:71-202). -/
structure Scan where
  /-- `range_image_intersector_->determineUpdateType` for the node's box (hashed_wavelet_integrator.cc:144-149). -/
  updateType : NdtreeIndex 3 → UpdateType
  /-- `computeUpdate` at the node's center in the sensor frame (hashed_wavelet_integrator.cc:131-135, 167-180). -/
  sample : NdtreeIndex 3 → ℚ
  /-- `computeWorstCaseApproximationError(..) < termination_update_error` (hashed_wavelet_integrator.cc:164-179). -/
  coarseEnough : UpdateType → NdtreeIndex 3 → Bool
  /-- `posed_range_image_->getOrigin()` -/
  origin : Point 3
  /-- `config_.max_range` -/
  maxRange : ℚ
  /-- `config_.max_update_resolution` -/
  maxUpdateResolution : ℚ

/-- `kNoiseThreshold` (hashed_wavelet_integrator.h:42), as an exact rational. -/
def noiseThreshold : ℚ := 1 / 10000

/-- `termination_height_` (hashed_wavelet_integrator.h:52-57). For `x > 1`, `round(log2(x)) = floor(log2(2 x²) / 2)`. -/
def Scan.terminationHeight (s : Scan) (minCellWidth : ℚ) : Int :=
  if minCellWidth < s.maxUpdateResolution then Int.log 2 (2 * (s.maxUpdateResolution / minCellWidth) ^ 2) / 2 else 0

/-- What happens to a child that was evaluated. Auxiliary: the ways in which the evaluation at hashed_wavelet_integrator.cc:115-200 ends. -/
inductive ChildAction where
  /-- `continue` without a change -/
  | keep
  /-- `node_value` is assigned; the flag tells whether `setNeedsThresholding` is called -/
  | assign (value : ℚ) (needsThresholding : Bool)
  /-- a new stack element is pushed -/
  | refine

/-- The evaluation of the active child (hashed_wavelet_integrator.cc:115-200): `node` is the pointer to the child's node, `n` its
index, `v` its `node_value`. -/
def childAction (scan : Scan) (lo hi : ℚ) (termination : Int) (node : WTree) (n : NdtreeIndex 3) (v : ℚ) : ChildAction :=
  let clamped := clamp (lo - noiseThreshold) (hi + noiseThreshold) (scan.sample n + v)
  if n.height ≤ termination then .assign clamped false
  else if scan.updateType n = .fullyUnobserved then .keep
  else if scan.updateType n ≠ .possiblyOccupied ∧ v < lo + noiseThreshold / 10 then .keep
  else if scan.coarseEnough (scan.updateType n) n then
    if node.isNil || !node.hasAtLeastOneChild then .assign clamped false else .assign (scan.sample n + v) true
  else .refine

/-- `StackElement` (hashed_wavelet_integrator.cc:78-84). The node reference is the path from the root. -/
structure UpdateFrame where
  path : List (Fin (2 ^ 3))
  index : NdtreeIndex 3
  next : Nat
  scales : Coeffs 3

/-- The loop of `updateBlock` (hashed_wavelet_integrator.cc:96-201): the tree, whether `setNeedsThresholding` was called and the
stack. Returns the tree, the new root scale and the flag; `none` if the loop has not ended after `fuel` iterations. -/
def updateLoop (scan : Scan) (lo hi : ℚ) (termination : Int) :
    Nat → WTree → Bool → List UpdateFrame → Option (WTree × ℚ × Bool)
  | 0, _, _, _ => none
  | _ + 1, _, _, [] => none -- not possible: the loop returns when it removes the last element
  | fuel + 1, t, thr, f :: stack =>
    if h : f.next < 2 ^ 3 then
      let c : Fin (2 ^ 3) := ⟨f.next, h⟩
      let n := f.index.computeChildIndex c.val
      let g := { f with next := f.next + 1 }
      match childAction scan lo hi termination ((t.descend f.path).child c) n (f.scales c) with
      | .keep => updateLoop scan lo hi termination fuel t thr (g :: stack)
      | .assign v b =>
        updateLoop scan lo hi termination fuel t (thr || b) ({ g with scales := fun c' => if c' = c then v else f.scales c' } :: stack)
      | .refine =>
        let t := t.modifyAt (fun s => s.setChild c (s.getOrAllocateChild c zeroDetails)) f.path
        let node := t.descend (f.path ++ [c])
        updateLoop scan lo hi termination fuel t thr
          (⟨f.path ++ [c], n, 0, backward 3 ⟨f.scales c, WTree.details node⟩⟩ :: g :: stack)
    else
      let p := forward 3 f.scales
      let t := t.modifyAt (fun s => s.setData p.details) f.path
      match stack with
      | [] => some (t, p.scale, thr)
      | g :: stack =>
        updateLoop scan lo hi termination fuel t thr
          ({ g with scales := fun c => if c.val = g.next - 1 then p.scale else g.scales c } :: stack)

/-- The iterations of the loop for a stack element at height `h`: nine of its own, and those of its children.
Auxiliary: the fuel for the loop at hashed_wavelet_integrator.cc:96-201. -/
def updateCost : Nat → Nat
  | 0 => 1
  | h + 1 => 9 + 8 * updateCost h

/-- `updateBlock` (hashed_wavelet_integrator.cc:71-202). -/
def WaveletBlock.update (scan : Scan) (config : HashedWaveletOctreeConfig) (b : WaveletBlock) (k : Index 3) (now : ℚ) : Option WaveletBlock :=
  (updateLoop scan config.minLogOdds config.maxLogOdds (scan.terminationHeight config.minCellWidth) (updateCost config.treeHeight)
      b.root b.needsThresholding [⟨[], ⟨config.treeHeight, k⟩, 0, backward 3 ⟨b.rootScale, WTree.details b.root⟩⟩]).map fun r =>
    { b with root := r.1, rootScale := r.2.1, needsThresholding := r.2.2, needsPruning := true, lastUpdated := now }

/-- `for (const auto& index : Grid(min, max))` (grid_iterator.h). -/
def gridIndices (mn mx : Index 3) : Option (List (Index 3)) :=
  let b := gridBounds mn mx
  let fuel := (b.map fun p => (p.2 - p.1 + 1).toNat).prod
  (gridVisit b (gridEnd b) fuel (gridBegin b)).map fun l => l.map fun t i => t.getD i.val 0

/-- `getFovMinMaxIndices` (hashed_wavelet_integrator.cc:50-69, hashed_chunked_wavelet_integrator.cc:50-69): the height, the minimum and the
maximum position. -/
def HashedWaveletOctreeConfig.fovMinMax (c : HashedWaveletOctreeConfig) (scan : Scan) : Nat × Index 3 × Index 3 :=
  let height := (1 + max (Int.clog 2 (scan.maxRange / c.minCellWidth)) c.treeHeight).toNat
  let mn := pointToFloorIndex (fun i => scan.origin i - scan.maxRange) (1 / c.minCellWidth)
  let mx := pointToCeilIndex (fun i => scan.origin i + scan.maxRange) (1 / c.minCellWidth)
  (height, (indexAndHeightToNodeIndex (fun i => mn i - (exp2 c.treeHeight : Nat)) height).position,
    (indexAndHeightToNodeIndex (fun i => mx i + (exp2 c.treeHeight : Nat)) height).position)

/-- `recursiveTester` (hashed_wavelet_integrator_inl.h:7-38, hashed_chunked_wavelet_integrator_inl.h:8-38); the first argument is the number of levels to
the blocks. `worth` tells whether a block exists and its root scale is not saturated (lines 25-31). -/
def blockSearch (scan : Scan) (worth : Index 3 → Bool) : Nat → NdtreeIndex 3 → List (Index 3)
  | 0, n =>
    if scan.updateType n = .fullyUnobserved then []
    else if scan.updateType n = .possiblyOccupied then [n.position]
    else if worth n.position then [n.position] else []
  | k + 1, n =>
    if scan.updateType n = .fullyUnobserved then []
    else n.computeChildIndices.flatMap (blockSearch scan worth k)

/-- The selection of the blocks (hashed_wavelet_integrator.cc:21-32, hashed_chunked_wavelet_integrator.cc:21-32). -/
def HashedWaveletOctreeConfig.blockJobs (c : HashedWaveletOctreeConfig) (scan : Scan) (worth : Index 3 → Bool) : Option (List (Index 3)) :=
  let fov := c.fovMinMax scan
  (gridIndices fov.2.1 fov.2.2).map fun l => l.flatMap fun p => blockSearch scan worth (fov.1 - c.treeHeight) ⟨fov.1, p⟩

namespace HashedWaveletOctree

/-- The test of a block in `recursiveTester` (hashed_wavelet_integrator_inl.h:25-31). -/
def worthUpdating (m : HashedWaveletOctree) (k : Index 3) : Bool :=
  match m.blocks.getBlock k with
  | none => false
  | some b => decide (m.config.minLogOdds + noiseThreshold / 10 ≤ b.rootScale)

/-- `blocks_to_update` (hashed_wavelet_integrator.cc:21-32). -/
def blocksToUpdate (m : HashedWaveletOctree) (scan : Scan) : Option (List (Index 3)) :=
  m.config.blockJobs scan m.worthUpdating

/-- The task for one block (hashed_wavelet_integrator.cc:40-46). -/
def updateTask (scan : Scan) (stamp : Index 3 → ℚ) (m : HashedWaveletOctree) (k : Index 3) : Option HashedWaveletOctree :=
  match m.blocks.getBlock k with
  | none => some m
  | some b => (b.update scan m.config k (stamp k)).map fun b' => { m with blocks := m.blocks.modifyBlock k fun _ => b' }

/-- `updateMap` (hashed_wavelet_integrator.cc:11-48). The tasks run on a thread pool; `schedule` gives the order in which they
take effect (tasks for different blocks touch different memory, see C33). `now` is the time at which blocks are
allocated, `stamp` when the task of each block runs. -/
def updateMap (scan : Scan) (schedule : List (Index 3) → List (Index 3)) (now : ℚ) (stamp : Index 3 → ℚ) (m : HashedWaveletOctree) :
    Option HashedWaveletOctree := do
  let jobs ← m.blocksToUpdate scan
  let m := jobs.foldl (fun m k => m.getOrAllocateBlock k now) m
  (schedule jobs).foldlM (updateTask scan stamp) m

end HashedWaveletOctree
end Wavemap
