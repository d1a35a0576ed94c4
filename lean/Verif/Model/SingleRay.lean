import Verif.Model.SinglePrecision
import Verif.Model.Iterate
import Verif.Model.Measurement
/-!
# Rays in single precision

`utils/iterate/ray_iterator.h` and `utils/iterate/impl/ray_iterator_inl.h` as in `Verif.Model.Iterate`, with every operation rounded, and
the updates of the ray-tracing integrator (core/integrator/ray_tracing/ray_tracing_integrator.cc) along such a ray.
-/
namespace Wavemap
namespace Single
variable {d : Nat}

/-- `Ray(start_index, end_index)` (ray_iterator_inl.h:5-33). -/
def rayOfIndices (a b : Index d) : Ray d where
  start := a
  stop := b
  lengthInSteps := rayLength a b
  signs i := (b i - a i).sign
  tStep i := if b i - a i = 0 then 2 else fl (fl ((b i - a i).sign : ℚ) / fl ((b i - a i : Int) : ℚ))
  tInit i := if b i - a i = 0 then 2 else fl (fl (fl ((max (b i - a i).sign 0 : Int) : ℚ) - 1 / 2) / fl ((b i - a i : Int) : ℚ))

/-- `Ray(start_point, end_point, cell_width)` (ray_iterator_inl.h:35-66). -/
def rayOfPoints (p q : Point d) (w : ℚ) : Ray d where
  start := pointToNearestIndex p (fl (1 / w))
  stop := pointToNearestIndex q (fl (1 / w))
  lengthInSteps := rayLength (pointToNearestIndex p (fl (1 / w))) (pointToNearestIndex q (fl (1 / w)))
  signs i := ratSign (fl (q i - p i))
  tStep i := if fl (q i - p i) = 0 then 2 else fl (indexToMinCorner (fun i => ratSign (fl (q i - p i))) w i / fl (q i - p i))
  tInit i := if fl (q i - p i) = 0 then 2
    else fl (fl (indexToMinCorner (fun i => max (ratSign (fl (q i - p i))) 0) w i
      - fl (p i - indexToMinCorner (pointToNearestIndex p (fl (1 / w))) w i)) / fl (q i - p i))

/-- `Ray::Iterator::operator++` (ray_iterator_inl.h:68-78), where `k` is the index returned by `t_to_next_boundary_.minCoeff(&k)`. -/
def rayNext (r : Ray d) (k : Fin d) (s : RayState d) : RayState d where
  current i := if i = k then s.current i + r.signs i else s.current i
  tNext i := if i = k then fl (s.tNext i + r.tStep i) else s.tNext i

/-- Incrementing from state `s`, the iterator's successive values are the given cells (ray_iterator.h:26-31, 40-46). -/
inductive RayVisit (r : Ray d) : RayState d → List (Index d) → Prop
  | done (s) : RayVisit r s []
  | last (s) : RayVisit r s [s.current]
  | next (s k l) : IsMinCoeff s.tNext k → l ≠ [] → RayVisit r (rayNext r k s) l → RayVisit r s (s.current :: l)

/-- The cells visited by `for (const auto& cell : ray)` (ray_iterator.h:20-56). -/
def RayCells (r : Ray d) (cells : List (Index d)) : Prop :=
  cells.length = r.lengthInSteps ∧ RayVisit r (rayBegin r) cells

/-- The updates of the ray-tracing integrator for a point within the maximum range (ray_tracing_integrator.cc:29-45) with `ConstantRay::computeUpdate` (constant_ray.h:46-52) and
`updateCachedVariables` (constant_ray.h:66-70), where `cells` are the cells of the ray. -/
def beamUpdates (c : ConstantRayConfig) (w : ℚ) (q : Point 3) (cells : List (Index 3)) : List (Index 3 × ℚ) :=
  cells.map fun i => (i, if i = pointToNearestIndex q (fl (1 / w)) then c.logOddsOccupied else c.logOddsFree)

end Single
end Wavemap
