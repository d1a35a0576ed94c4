import Mathlib.Analysis.SpecialFunctions.Sqrt
import Verif.Model.Containers
import Verif.Model.Neighbors
import Verif.Model.Occupancy
import Verif.Model.Wavelet
/-!
# Signed distance field generators

Models `utils/sdf/{quasi,full}_euclidean_sdf_generator.{h,cc}` (under `library/cpp/{include/wavemap,src}/core`).

Simplifications: distances are exact real numbers (`float` in the code); the sign bit of a number is `x < 0`, which is the
same as the IEEE sign bit as long as no stored distance is zero (proved: C49); occupancy values are read with the map's
`getCellValue`, where the code reads them through a `QueryAccelerator` (C25 proves that both agree, for tree heights below
20); coordinates are unbounded integers. The result is the dense block hash inside the returned `HashedBlocks`; the rest of
that object is its config. Loops that end by a condition on the data are given `fuel`; `none` is a loop that has not ended
after `fuel` iterations, an access outside a container, or a failed `DCHECK` of a debug build.
-/
namespace Wavemap

noncomputable section

/-- `v.norm()` of a 3D vector. Used at quasi_euclidean_sdf_generator.cc:82-84 and full_euclidean_sdf_generator.cc:187-201. -/
def vecNorm (v : Fin 3 → ℝ) : ℝ := Real.sqrt (v 0 ^ 2 + v 1 ^ 2 + v 2 ^ 2)

/-- `offset.cast<FloatingPoint>().norm()` (quasi_euclidean_sdf_generator.cc:81-83, grid_neighborhood_inl.h:49-51). -/
def indexNorm (o : Index 3) : ℝ := vecNorm fun i => (o i : ℝ)

/-- `std::copysign(magnitude, x)`, for a magnitude `≥ 0` and `x ≠ 0`.
Used at quasi_euclidean_sdf_generator.cc:169 and full_euclidean_sdf_generator.cc:171. -/
def copysign (magnitude x : ℝ) : ℝ := if x < 0 then -magnitude else magnitude

/-- What seeding and propagation work on: the distance field and the queue of open cells
(quasi_euclidean_sdf_generator.cc:11-29, full_euclidean_sdf_generator.cc:9-37). -/
structure SdfState (α : Type) where
  sdf : DenseBlockHash 3 4 α
  queue : BucketQueue ℝ (Index 3)

/-- The loop over the leaves and, for each obstacle, over the grid that pads it with one voxel
(quasi_euclidean_sdf_generator.cc:41-59, full_euclidean_sdf_generator.cc:49-67); `cell lo hi` is the body of the inner loop,
for the obstacle with corners `lo` and `hi`. -/
def sdfSeed {α : Type} (cl : OccClassifier) (fuel : Nat) (cell : Index 3 → Index 3 → SdfState α → Index 3 → Option (SdfState α))
    (leaves : List (NdtreeIndex 3 × ℚ)) (s : SdfState α) : Option (SdfState α) :=
  leaves.foldlM (fun s e =>
    if cl.is e.2 OccId.occupied.toMask then do
      let lo := nodeIndexToMinCornerIndex e.1
      let hi := nodeIndexToMaxCornerIndex e.1
      let b := gridBounds (fun i => lo i - 1) (fun i => hi i + 1)
      let visited ← gridVisit b (gridEnd b) fuel (gridBegin b)
      let cells ← visited.mapM indexOfList
      cells.foldlM (cell lo hi) s
    else some s) s

/-- The loop over the queue (quasi_euclidean_sdf_generator.cc:111-119, full_euclidean_sdf_generator.cc:118-125);
`visit index value` is the body of the inner loop over the neighbours of `index`. The code of the full generator reads the
parent and distance of `index` through a reference into the field; they do not change while its neighbours are visited. -/
def sdfPropagate {α : Type} (offsets : List (Index 3)) (visit : Index 3 → α → SdfState α → Index 3 → Option (SdfState α)) :
    Nat → SdfState α → Option (DenseBlockHash 3 4 α)
  | fuel, s =>
    if s.queue.empty then some s.sdf
    else
      match fuel with
      | 0 => none
      | fuel + 1 =>
        match s.queue.front with
        | none => none
        | some (index, q) =>
          let value := s.sdf.getValueOrDefault index
          match q.pop with
          | none => none
          | some q =>
            match offsets.foldlM (visit index value) { s with queue := q } with
            | none => none
            | some s' => sdfPropagate offsets visit fuel s'

/-- `half_max_neighbor_distance_offset` (quasi_euclidean_sdf_generator.cc:106-107, full_euclidean_sdf_generator.cc:114-115). -/
def halfMaxNeighborDistanceOffset (w : ℝ) : ℝ := 1 / 2 * Real.sqrt 3 * w + 1 / 1000

/-- The queue both generators start with (quasi_euclidean_sdf_generator.cc:20-22, full_euclidean_sdf_generator.cc:20-22). -/
def sdfQueue (maxDistance w : ℝ) : BucketQueue ℝ (Index 3) := .create ⌈maxDistance / w⌉.toNat maxDistance

/-- `index.cwiseMax(min_corner).cwiseMin(max_corner)` (quasi_euclidean_sdf_generator.cc:64-65,
full_euclidean_sdf_generator.cc:72-73). -/
def nearestInnerIndex (lo hi index : Index 3) : Index 3 := fun i => min (max (index i) (lo i)) (hi i)

/-! ## Quasi-Euclidean -/

namespace QuasiSdf

/-- Body of the seeding loop for one voxel (quasi_euclidean_sdf_generator.cc:65-90). -/
def seedCell (occupancy : Index 3 → ℚ) (cl : OccClassifier) (w : ℝ) (lo hi : Index 3) (s : SdfState ℝ) (index : Index 3) :
    Option (SdfState ℝ) :=
  let nearestInner := nearestInnerIndex lo hi index
  if index = nearestInner then some s
  else if cl.is (occupancy index) OccId.free.toMask = false then some s
  else
    let value := s.sdf.getValueOrDefault index
    let distance := 1 / 2 * w * indexNorm fun i => index i - nearestInner i
    let sdf := s.sdf.updateValue index fun _ => min value distance
    if s.sdf.defaultValue = value then (s.queue.push distance index).map fun q => ⟨sdf, q⟩
    else some { s with sdf := sdf }

/-- End of the propagation loop body (quasi_euclidean_sdf_generator.cc:166-174). -/
def store (s : SdfState ℝ) (index : Index 3) (value candidate : ℝ) (uninitialized : Prop) [Decidable uninitialized] :
    Option (SdfState ℝ) :=
  let sdf := s.sdf.updateValue index fun _ => copysign (min |value| candidate) value
  if uninitialized then (s.queue.push candidate index).map fun q => ⟨sdf, q⟩ else some { s with sdf := sdf }

/-- Body of the propagation loop for one neighbour (quasi_euclidean_sdf_generator.cc:120-175). -/
def visit (occupancy : Index 3 → ℚ) (cl : OccClassifier) (maxDistance w : ℝ) (index : Index 3) (value : ℝ) (s : SdfState ℝ)
    (offset : Index 3) : Option (SdfState ℝ) :=
  let offsetLength := w * indexNorm offset
  let candidate := |value| + offsetLength
  if maxDistance ≤ candidate then some s
  else
    let neighbor : Index 3 := fun i => index i + offset i
    let stored := s.sdf.getValueOrDefault neighbor
    let uninitialized := s.sdf.defaultValue = stored
    if uninitialized ∧ cl.is (occupancy neighbor) OccId.unobserved.toMask = true then
      some { s with sdf := s.sdf.updateValue neighbor id }
    else
      let neighborValue := if uninitialized ∧ cl.is (occupancy neighbor) OccId.occupied.toMask = true then -s.sdf.defaultValue
        else stored
      if decide (neighborValue < 0) ≠ decide (value < 0) then
        if neighborValue < 0 then
          if |value| ≤ halfMaxNeighborDistanceOffset w then
            store s neighbor neighborValue (offsetLength - |value|) uninitialized
          else none
        else some { s with sdf := s.sdf.updateValue neighbor fun _ => neighborValue }
      else store s neighbor neighborValue candidate uninitialized

/-- `QuasiEuclideanSDFGenerator::generate` (quasi_euclidean_sdf_generator.cc:11-29). -/
def generate (maxDistance : ℝ) (cl : OccClassifier) (m : HashedWaveletOctree) (fuel : Nat) : Option (DenseBlockHash 3 4 ℝ) := do
  let w : ℝ := m.config.minCellWidth
  let offsets ← generateIndexOffsets 3 .anyDisjoint
  let s ← sdfSeed cl fuel (seedCell m.getCellValue cl w) m.forEachLeaf ⟨.create maxDistance, sdfQueue maxDistance w⟩
  sdfPropagate offsets (visit m.getCellValue cl maxDistance w) fuel s

end QuasiSdf

/-! ## Full Euclidean -/

/-- `VectorDistance` (full_euclidean_sdf_generator.h:11-21). -/
structure VectorDistance where
  parent : Index 3
  distance : ℝ

/-- `uninitialized_parent` (full_euclidean_sdf_generator.cc:14-15). -/
def uninitializedParent : Index 3 := fun _ => 2147483647

namespace FullSdf

/-- `minDistanceTo` (full_euclidean_sdf_generator.cc:187-201). -/
def minDistanceTo (child parent : Index 3) (w : ℝ) : ℝ :=
  let center : Fin 3 → ℝ := fun i => ((child i : ℝ) + 1 / 2) * w
  let minCorner : Fin 3 → ℝ := fun i => (parent i : ℝ) * w
  let maxCorner : Fin 3 → ℝ := fun i => minCorner i + w
  vecNorm fun i => center i - min (max (center i) (minCorner i)) (maxCorner i)

/-- Body of the seeding loop for one voxel (full_euclidean_sdf_generator.cc:68-100). -/
def seedCell (occupancy : Index 3 → ℚ) (cl : OccClassifier) (w : ℝ) (lo hi : Index 3) (s : SdfState VectorDistance)
    (index : Index 3) : Option (SdfState VectorDistance) :=
  let nearestInner := nearestInnerIndex lo hi index
  if index = nearestInner then some s
  else if cl.is (occupancy index) OccId.free.toMask = false then some s
  else
    let value := s.sdf.getValueOrDefault index
    let distance := minDistanceTo index nearestInner w
    let sdf := s.sdf.updateValue index fun _ => if distance < value.distance then ⟨nearestInner, distance⟩ else value
    if value.parent = s.sdf.defaultValue.parent then (s.queue.push distance index).map fun q => ⟨sdf, q⟩
    else some { s with sdf := sdf }

/-- End of the propagation loop body (full_euclidean_sdf_generator.cc:167-182). -/
def store (s : SdfState VectorDistance) (index : Index 3) (value : VectorDistance) (candidate : ℝ) (parent : Index 3)
    (uninitialized : Prop) [Decidable uninitialized] : Option (SdfState VectorDistance) :=
  let sdf := s.sdf.updateValue index fun _ =>
    if candidate < |value.distance| then ⟨parent, copysign candidate value.distance⟩ else value
  if uninitialized then (s.queue.push candidate index).map fun q => ⟨sdf, q⟩ else some { s with sdf := sdf }

/-- Body of the propagation loop for one neighbour (full_euclidean_sdf_generator.cc:126-182). -/
def visit (occupancy : Index 3 → ℚ) (cl : OccClassifier) (maxDistance w : ℝ) (index : Index 3) (value : VectorDistance)
    (s : SdfState VectorDistance) (offset : Index 3) : Option (SdfState VectorDistance) :=
  let neighbor : Index 3 := fun i => index i + offset i
  let candidate := minDistanceTo neighbor value.parent w
  if maxDistance ≤ candidate then some s
  else
    let stored := s.sdf.getValueOrDefault neighbor
    let uninitialized := stored.parent = s.sdf.defaultValue.parent
    if uninitialized ∧ cl.is (occupancy neighbor) OccId.unobserved.toMask = true then
      some { s with sdf := s.sdf.updateValue neighbor id }
    else
      let neighborValue : VectorDistance :=
        if uninitialized ∧ cl.is (occupancy neighbor) OccId.occupied.toMask = true then
          ⟨stored.parent, -s.sdf.defaultValue.distance⟩
        else stored
      if decide (neighborValue.distance < 0) ≠ decide (value.distance < 0) then
        if neighborValue.distance < 0 then
          if |value.distance| ≤ halfMaxNeighborDistanceOffset w then
            store s neighbor neighborValue (minDistanceTo neighbor index w) index uninitialized
          else none
        else some { s with sdf := s.sdf.updateValue neighbor fun _ => neighborValue }
      else store s neighbor neighborValue candidate value.parent uninitialized

/-- The copy into the returned map (full_euclidean_sdf_generator.cc:28-34). -/
def toHashedBlocks (maxDistance : ℝ) (field : DenseBlockHash 3 4 VectorDistance) : DenseBlockHash 3 4 ℝ :=
  field.forEachLeaf.foldl (fun sdf e => sdf.updateValue e.1 fun _ => e.2.distance) (.create maxDistance)

/-- `FullEuclideanSDFGenerator::generate` (full_euclidean_sdf_generator.cc:9-37). -/
def generate (maxDistance : ℝ) (cl : OccClassifier) (m : HashedWaveletOctree) (fuel : Nat) : Option (DenseBlockHash 3 4 ℝ) := do
  let w : ℝ := m.config.minCellWidth
  let offsets ← generateIndexOffsets 3 .anyDisjoint
  let s ← sdfSeed cl fuel (seedCell m.getCellValue cl w) m.forEachLeaf
    ⟨.create ⟨uninitializedParent, maxDistance⟩, sdfQueue maxDistance w⟩
  let field ← sdfPropagate offsets (visit m.getCellValue cl maxDistance w) fuel s
  return toHashedBlocks maxDistance field

end FullSdf
end
end Wavemap
