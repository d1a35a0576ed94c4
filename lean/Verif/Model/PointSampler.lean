import Verif.Model.ClassifiedMap
import Verif.Model.Aabb
/-!
# Random points

Models `library/cpp/{src/core/utils/query/point_sampler.cc,include/wavemap/core/utils/query/impl/point_sampler_inl.h}`.

The pseudo-random generator is modelled by arbitrary sequences of draws, one triple of numbers in `[0, 1)` and one integer for each
attempt: every theorem holds for all of them.
-/
namespace Wavemap

/-- What the random number generator delivers for attempt `i` (random_number_generator.h). -/
structure Draws where
  /-- three numbers in `[0, 1)` -/
  unit : Nat → Fin 3 → ℚ
  /-- an integer, taken modulo the number of blocks -/
  int : Nat → Nat

namespace PointSampler

/-- `getRandomRealNumber` (random_number_generator.h:26-32): `lower + u (upper - lower)`. -/
def realNumber (lower upper u : ℚ) : ℚ := lower + u * (upper - lower)

/-- `getRandomPointInAABB` (point_sampler_inl.h:18-22). -/
def pointInAabb (lo hi : Point 3) (u : Fin 3 → ℚ) : Point 3 := fun i => realNumber (lo i) (hi i) (u i)

/-- `getRandomPointInBlock` (point_sampler_inl.h:24-28). -/
def pointInBlock (c : ClassifiedMap) (b : Index 3) (u : Fin 3 → ℚ) : Point 3 :=
  pointInAabb (nodeIndexToMinCorner ⟨c.blocks.maxHeight, b⟩ c.minCellWidth) (nodeIndexToMaxCorner ⟨c.blocks.maxHeight, b⟩ c.minCellWidth) u

/-- `getRandomBlock` (point_sampler.cc:4-18), with the draw `n`. -/
def randomBlock (c : ClassifiedMap) (n : Nat) : Option (Index 3) := (c.blocks.blocks[n % c.blocks.blocks.length]?).map Prod.fst

/-- The point of an attempt (point_sampler.cc:28-35); `none` is `continue`. -/
def candidate (c : ClassifiedMap) (aabb : Option (Point 3 × Point 3)) (draws : Draws) (i : Nat) : Option (Point 3) :=
  match aabb with
  | some (lo, hi) => some (pointInAabb lo hi (draws.unit i))
  | none => (randomBlock c (draws.int i)).map fun b => pointInBlock c b (draws.unit i)

/-- The loop (point_sampler.cc:27-40) from `attempt_idx = i` with `n` attempts left: the point, if any, and the map with its cache. -/
def attempts (mask : BitVec 8) (aabb : Option (Point 3 × Point 3)) (draws : Draws) : (n i : Nat) → ClassifiedMap → Option (Option (Point 3) × ClassifiedMap)
  | 0, _, c => some (none, c)
  | n + 1, i, c =>
    match candidate c aabb draws i with
    | none => attempts mask aabb draws n (i + 1) c
    | some p =>
      match c.isFully ⟨0, pointToNearestIndex p (1 / c.minCellWidth)⟩ mask with
      | none => none
      | some (true, c') => some (some p, c')
      | some (false, c') => attempts mask aabb draws n (i + 1) c'

/-- `getRandomPoint` (point_sampler_inl.h:5-16, point_sampler.cc:20-43). -/
def getRandomPoint (c : ClassifiedMap) (mask : BitVec 8) (aabb : Option (Point 3 × Point 3)) (maxAttempts : Nat) (draws : Draws) :
    Option (Option (Point 3) × ClassifiedMap) :=
  if c.blocks.blocks.isEmpty then some (none, c) else attempts mask aabb draws maxAttempts 0 c

end PointSampler
end Wavemap
