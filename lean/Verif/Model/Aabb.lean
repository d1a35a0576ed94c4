import Mathlib.Algebra.BigOperators.Fin
import Verif.Model.Conversions
/-!
# Axis-aligned bounding boxes

Models `library/cpp/include/wavemap/core/data_structure/aabb.h` for the floating point instantiations used by the
library (`AABB<Point3D>`, `AABB<Vector3D>`), with exact rational scalars.
-/
namespace Wavemap

/-- `AABB` (aabb.h:15-30). -/
structure Aabb (d : Nat) where
  min : Point d
  max : Point d

/-- Eigen's `squaredNorm`. Used at aabb.h:75, 79. -/
def sqNorm {d : Nat} (v : Point d) : ℚ := ∑ i, v i * v i

namespace Aabb
variable {d : Nat}

/-- `AABB()` (aabb.h:22-28): `big` is `numeric_limits<ScalarType>::max()` and `-big` is `lowest()`. -/
def empty (big : ℚ) : Aabb d := ⟨fun _ => big, fun _ => -big⟩

/-- `includePoint` (aabb.h:32-35). -/
def includePoint (a : Aabb d) (p : Point d) : Aabb d :=
  ⟨fun i => Min.min (a.min i) (p i), fun i => Max.max (a.max i) (p i)⟩

/-- `containsPoint` (aabb.h:36-38). -/
def containsPoint (a : Aabb d) (p : Point d) : Bool := decide (∀ i, a.min i ≤ p i ∧ p i ≤ a.max i)

/-- `closestPointTo` (aabb.h:40-43). -/
def closestPointTo (a : Aabb d) (p : Point d) : Point d := fun i => Min.min (Max.max (p i) (a.min i)) (a.max i)

/-- `furthestPointFrom` (aabb.h:44-49). -/
def furthestPointFrom (a : Aabb d) (p : Point d) : Point d := fun i =>
  if (a.min i + a.max i) / 2 < p i then a.min i else a.max i

/-- `minOffsetTo(point)` (aabb.h:51-53). -/
def minOffsetTo (a : Aabb d) (p : Point d) : Point d := fun i => p i - a.closestPointTo p i

/-- `maxOffsetTo(point)` (aabb.h:54-56). -/
def maxOffsetTo (a : Aabb d) (p : Point d) : Point d := fun i => p i - a.furthestPointFrom p i

/-- `minOffsetTo(aabb)` (aabb.h:58-62). -/
def minOffsetToBox (a b : Aabb d) : Point d := fun i =>
  Max.max (Max.max (a.min i) (b.min i) - Min.min (a.max i) (b.max i)) 0

/-- `maxOffsetTo(aabb)` (aabb.h:65-71). -/
def maxOffsetToBox (a b : Aabb d) : Point d := fun i =>
  let diff1 := a.min i - b.max i
  let diff2 := a.max i - b.min i
  if |diff2| < |diff1| then diff1 else diff2

/-- `minSquaredDistanceTo` (aabb.h:73-76). -/
def minSquaredDistanceTo (a : Aabb d) (p : Point d) : ℚ := sqNorm (a.minOffsetTo p)
/-- `maxSquaredDistanceTo` (aabb.h:77-80). -/
def maxSquaredDistanceTo (a : Aabb d) (p : Point d) : ℚ := sqNorm (a.maxOffsetTo p)
/-- `minSquaredDistanceTo` (aabb.h:73-76), for a box. -/
def minSquaredDistanceToBox (a b : Aabb d) : ℚ := sqNorm (a.minOffsetToBox b)
/-- `maxSquaredDistanceTo` (aabb.h:77-80), for a box. -/
def maxSquaredDistanceToBox (a b : Aabb d) : ℚ := sqNorm (a.maxOffsetToBox b)

/-- `corner_point` with `corner_coordinate` (aabb.h:107-121). -/
def cornerPoint (a : Aabb d) (corner : Nat) : Point d := fun i =>
  if corner.testBit i then a.max i else a.min i

end Aabb
end Wavemap
