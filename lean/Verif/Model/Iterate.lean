import Mathlib.Data.Rat.Floor
import Mathlib.Algebra.BigOperators.Fin
import Verif.Model.Conversions
/-!
# Grid and ray iteration

Models `utils/iterate/grid_iterator.h`, `utils/iterate/ray_iterator.h` and `utils/iterate/impl/ray_iterator_inl.h`
(under `library/cpp/include/wavemap/core`).
-/
namespace Wavemap

/-! ## Grid

An index is represented by the list of its coordinates, and the grid by the list of its `(min, max)` coordinate pairs,
dimension 0 first. -/

/-- The carry loop of `Grid::Iterator::operator++` (grid_iterator.h:34-39); it does not test the last dimension. -/
def gridCarry : List (Int × Int) → List Int → List Int
  | (lo, hi) :: b :: bs, x :: y :: ys =>
      if hi < x then lo :: gridCarry (b :: bs) ((y + 1) :: ys) else x :: gridCarry (b :: bs) (y :: ys)
  | _, xs => xs

/-- `Grid::Iterator::operator++` (grid_iterator.h:32-41). -/
def gridNext (b : List (Int × Int)) : List Int → List Int
  | x :: xs => gridCarry b ((x + 1) :: xs)
  | [] => []

/-- `Grid::begin` (grid_iterator.h:23-24, 59): the minimum index. -/
def gridBegin (b : List (Int × Int)) : List Int := b.map Prod.fst

/-- `Grid::end` (grid_iterator.h:25-29, 60): the minimum index, with the last coordinate one past the maximum. -/
def gridEnd : List (Int × Int) → List Int
  | [] => []
  | [(_, hi)] => [hi + 1]
  | (lo, _) :: b => lo :: gridEnd b

/-- The loop `for (it = begin; it != end; ++it)`; `none` if it has not ended after `fuel` iterations (grid_iterator.h). -/
def gridVisit (b : List (Int × Int)) (stop : List Int) : Nat → List Int → Option (List (List Int))
  | fuel, cur => if cur = stop then some [] else
      match fuel with
      | 0 => none
      | fuel + 1 => (gridVisit b stop fuel (gridNext b cur)).map (cur :: ·)

/-- Coordinate pairs of `Grid<dim>(min, max)` (grid_iterator.h). -/
def gridBounds {d : Nat} (mn mx : Index d) : List (Int × Int) := List.ofFn fun i => (mn i, mx i)

/-! ## Rays -/

/-- `Ray<dim>` (ray_iterator.h:58-65). -/
structure Ray (d : Nat) where
  start : Index d
  stop : Index d
  lengthInSteps : Nat
  signs : Index d
  tStep : Point d
  tInit : Point d

/-- `(end_index_ - start_index_).cwiseAbs().sum() + 1u` (ray_iterator_inl.h:9, 40). -/
def rayLength {d : Nat} (a b : Index d) : Nat := ∑ i, (b i - a i).natAbs + 1

/-- `Ray(start_index, end_index)` (ray_iterator_inl.h:5-33), exact arithmetic. -/
def Ray.ofIndices {d : Nat} (a b : Index d) : Ray d where
  start := a
  stop := b
  lengthInSteps := rayLength a b
  signs i := (b i - a i).sign
  tStep i := if b i - a i = 0 then 2 else ((b i - a i).sign : ℚ) / ((b i - a i : Int) : ℚ)
  tInit i := if b i - a i = 0 then 2
    else (((max (b i - a i).sign 0 : Int) : ℚ) - 1 / 2) / ((b i - a i : Int) : ℚ)

/-- `cwiseSign` of a floating point number. Used at ray_iterator_inl.h:16, 49. -/
def ratSign (x : ℚ) : Int := if 0 < x then 1 else if x < 0 then -1 else 0

/-- `convert::indexToMinCorner` of one coordinate (index_conversions.h). -/
def coordMinCorner (i : Int) (w : ℚ) : ℚ := (i : ℚ) * w

/-- `Ray(start_point, end_point, cell_width)` (ray_iterator_inl.h:35-66), exact arithmetic. -/
def Ray.ofPoints {d : Nat} (p q : Point d) (w : ℚ) : Ray d where
  start := pointToNearestIndex p (1 / w)
  stop := pointToNearestIndex q (1 / w)
  lengthInSteps := rayLength (pointToNearestIndex p (1 / w)) (pointToNearestIndex q (1 / w))
  signs i := ratSign (q i - p i)
  tStep i := if q i - p i = 0 then 2 else coordMinCorner (ratSign (q i - p i)) w / (q i - p i)
  tInit i := if q i - p i = 0 then 2
    else (coordMinCorner (max (ratSign (q i - p i)) 0) w
      - (p i - coordMinCorner (pointToNearestIndex p (1 / w) i) w)) / (q i - p i)

/-- State of `Ray::Iterator` (ray_iterator.h:48-52). -/
structure RayState (d : Nat) where
  current : Index d
  tNext : Point d

/-- `Ray::Iterator::operator++` (ray_iterator_inl.h:68-78), where `k` is the index returned by
`t_to_next_boundary_.minCoeff(&k)`. -/
def rayNext {d : Nat} (r : Ray d) (k : Fin d) (s : RayState d) : RayState d where
  current i := if i = k then s.current i + r.signs i else s.current i
  tNext i := if i = k then s.tNext i + r.tStep i else s.tNext i

/-- `t_to_next_boundary_.minCoeff(&k)`: `k` is the index of a smallest coefficient (which one is left open) (ray_iterator_inl.h:71). -/
def IsMinCoeff {d : Nat} (t : Point d) (k : Fin d) : Prop := ∀ j, t k ≤ t j

/-- `begin()` (ray_iterator.h:22-25). -/
def rayBegin {d : Nat} (r : Ray d) : RayState d := ⟨r.start, r.tInit⟩

/-- `RayVisit r s cells`: incrementing from state `s`, the iterator's successive values are `cells`. The loop ends when
`current_step_` reaches the ray length (ray_iterator.h:26-31, 40-46), i.e. after `cells.length = lengthInSteps`. -/
inductive RayVisit {d : Nat} (r : Ray d) : RayState d → List (Index d) → Prop
  | done (s) : RayVisit r s []
  | last (s) : RayVisit r s [s.current]
  | next (s k l) : IsMinCoeff s.tNext k → l ≠ [] → RayVisit r (rayNext r k s) l → RayVisit r s (s.current :: l)

/-- The cells visited by `for (const auto& cell : ray)` (ray_iterator.h:20-56). -/
def RayCells {d : Nat} (r : Ray d) (cells : List (Index d)) : Prop :=
  cells.length = r.lengthInSteps ∧ RayVisit r (rayBegin r) cells

end Wavemap
