import Verif.Model.Measurement
import Verif.Model.IntMath
/-!
# Hierarchical range image bounds and the range image intersector

Models `integrator/projective/coarse_to_fine/hierarchical_range_bounds.h` with its `impl` file, and
`RangeImageIntersector::determineUpdateType` (`impl/range_image_intersector_inl.h`), under
`library/cpp/include/wavemap/core`. `FloatingPoint` is `ℝ`, `IndexElement` is `Int`. A failing `CHECK`/`DCHECK`, an access
outside an image or outside the vector of levels is `none`.
-/
namespace Wavemap

/-- `int_math::log2_floor` (utils/math/int_math.h:16-25), 32-bit signed instantiation: `31 - clz(value)`; `DCHECK(value !=
0)`. -/
def log2FloorInt (x : Nat) : Option Nat := if x = 0 then none else some (31 - (32 - (Nat.log2 x + 1)))

/-- `int_math::log2_ceil` (utils/math/int_math.h:27-36), 32-bit signed instantiation. -/
def log2CeilInt (x : Nat) : Option Nat := do
  let l ← log2FloorInt x
  return if popcount x = 1 then l else l + 1

/-! ## Pyramid -/

section
variable {α : Type}

/-- The value of one cell of a level, reduced from the block of `prev` between `(x0, y0)` and `(x1, y1)`
(hierarchical_range_bounds_inl.h:336-375), with the code's branches in order. -/
def reduceCell (wraps : Bool) (f : α → α → α) (init : α) (prev : Image α) (x0 y0 x1 y1 : Nat) : α :=
  if x0 < prev.rows ∧ y0 < prev.cols then
    let r00 := prev.px x0 y0
    if x1 < prev.rows then
      let firstCol := f r00 (prev.px x1 y0)
      if y1 < prev.cols then f firstCol (f (prev.px x0 y1) (prev.px x1 y1))
      else if wraps ∧ y1 ≤ prev.cols then f firstCol (f (prev.px x0 0) (prev.px x1 0))
      else f firstCol init
    else if y1 < prev.cols then f (f r00 (prev.px x0 y1)) init
    else if wraps ∧ y1 ≤ prev.cols then f (f r00 (prev.px x0 0)) init
    else f r00 init
  else init

/-- `pyramid[level_idx]` (hierarchical_range_bounds_inl.h:310-376). `dims` is `range_image_dims_scaled`; level 0 is
reduced from the image, with the child indices divided by the scale factors. -/
def pyramidLevel (wraps : Bool) (sx sy : Nat) (f : α → α → α) (init : α) (image : Image α) : Nat → Image α
  | 0 => ⟨(divExp2Ceil (sx * image.rows : Nat) 1).toNat, (divExp2Ceil (sy * image.cols : Nat) 1).toNat,
      fun x y => reduceCell wraps f init image (2 * x / sx) (2 * y / sy) ((2 * x + 1) / sx) ((2 * y + 1) / sy)⟩
  | k + 1 => ⟨(divExp2Ceil (sx * image.rows : Nat) (k + 2)).toNat, (divExp2Ceil (sy * image.cols : Nat) (k + 2)).toNat,
      fun x y => reduceCell wraps f init (pyramidLevel wraps sx sy f init image k) (2 * x) (2 * y) (2 * x + 1) (2 * y + 1)⟩

/-- `computeReducedPyramid` (hierarchical_range_bounds_inl.h:293-379). The `CHECK` on wrapping images tests
`popcount(num_columns)` itself, not that it equals one. -/
def computeReducedPyramid (wraps : Bool) (sx sy : Nat) (f : α → α → α) (init : α) (image : Image α) :
    Option (List (Image α)) :=
  if wraps = true ∧ popcount image.cols = 0 then none
  else do
    let n ← log2CeilInt (max (sx * image.rows) (sy * image.cols))
    return (List.range n).map (pyramidLevel wraps sx sy f init image)

/-- `levels[k].at(i)`. Auxiliary for hierarchical_range_bounds_inl.h:310-376. -/
def levelAt (levels : List (Image α)) (k : Int) (i : Idx2) : Option α :=
  if k < 0 then none else do (← levels[k.toNat]?).at i

/-- Reduction of two accesses. Auxiliary for hierarchical_range_bounds_inl.h:310-376. -/
def reduce2 (f : α → α → α) (a b : Option α) : Option α := do return f (← a) (← b)

/-- `div_exp2_floor` on both coordinates (int_math.h:16-25). -/
def shiftIdx (i : Idx2) (e : Nat) : Idx2 := (divExp2Floor i.1 e, divExp2Floor i.2 e)

/-- Product with the image to pyramid scale factor. Auxiliary for hierarchical_range_bounds_inl.h:293-379. -/
def scaleIdx (sx sy : Nat) (i : Idx2) : Idx2 := (sx * i.1, sy * i.2)

/-- The selection of the cells that cover the interval (hierarchical_range_bounds_inl.h:72-163, 208-254), from the child
indices `mnC`, `mxC` and the unwrapped `mxCU` at `min_level_up = up`. -/
def queryCells (f : α → α → α) (image : Image α) (levels : List (Image α)) (mn mx mnC mxC mxCU : Idx2) (up : Nat) :
    Option α :=
  let childHeight : Int := up - 1
  let mnP := shiftIdx mnC 1
  let mxP := shiftIdx mxC 1
  let mxPU := shiftIdx mxCU 1
  let parentHeight : Int := up
  if |mxCU.1 - mnC.1| ≤ 1 ∧ |mxCU.2 - mnC.2| ≤ 1 then
    if mnC = mxCU then none
    else if mnC.1 = mxCU.1 ∨ mnC.2 = mxCU.2 then
      if up = 0 then reduce2 f (image.at mn) (image.at mx)
      else reduce2 f (levelAt levels childHeight mnC) (levelAt levels childHeight mxC)
    else if mnP = mxPU then levelAt levels parentHeight mnP
    else if up = 0 then
      reduce2 f (reduce2 f (image.at mn) (image.at (mn.1, mx.2))) (reduce2 f (image.at (mx.1, mn.2)) (image.at mx))
    else
      reduce2 f
        (reduce2 f (levelAt levels childHeight mnC) (levelAt levels childHeight (mnC.1, mxC.2)))
        (reduce2 f (levelAt levels childHeight (mxC.1, mnC.2)) (levelAt levels childHeight mxC))
  else
    reduce2 f
      (reduce2 f (levelAt levels parentHeight mnP) (levelAt levels parentHeight (mnP.1, mxP.2)))
      (reduce2 f (levelAt levels parentHeight (mxP.1, mnP.2)) (levelAt levels parentHeight mxP))

/-- The common structure of `getBounds(min, max)` (hierarchical_range_bounds_inl.h:35-164) and `hasUnobserved(min, max)`
(hierarchical_range_bounds_inl.h:166-255), for the reduction `f`. `image` holds the pixels after `valueOrInit` or
`isUnobserved`, and `levels` is the corresponding pyramid. -/
def intervalQuery (wraps : Bool) (sx sy : Nat) (f : α → α → α) (image : Image α) (levels : List (Image α)) (mn mx : Idx2) :
    Option α :=
  if mn = mx then image.at mn
  else
    let mxU : Idx2 := if wraps = true ∧ mx.2 < mn.2 then (mx.1, mx.2 + image.cols) else mx
    if ¬ (mn.1 ≤ mxU.1 ∧ mn.2 ≤ mxU.2) then none
    else
      let mnS := scaleIdx sx sy mn
      let mxS := scaleIdx sx sy mx
      let mxUS := scaleIdx sx sy mxU
      let maxIdxDiff := max (mxUS.1 - mnS.1) (mxUS.2 - mnS.2)
      match (if maxIdxDiff = 0 then some 0 else log2FloorInt maxIdxDiff.toNat) with
      | none => none
      | some up => queryCells f image levels mn mx (shiftIdx mnS up) (shiftIdx mxS up) (shiftIdx mxUS up) up

end

noncomputable section

/-- `HierarchicalRangeBounds` (hierarchical_range_bounds.h:18-141): the range image, whether its columns wrap around, the
minimum range and the image to pyramid scale factor; the pyramids are functions of these. -/
structure RangeBounds where
  image : Image ℝ
  wraps : Bool
  minRange : ℝ
  sx : Nat
  sy : Nat

namespace RangeBounds

/-- `kUnknownValueLowerBound` (hierarchical_range_bounds.h:86). -/
def unknownLower : ℝ := 10000
/-- `kUnknownValueUpperBound` (hierarchical_range_bounds.h:87). -/
def unknownUpper : ℝ := 0

/-- `isUnobserved` (hierarchical_range_bounds.h:121). -/
def isUnobserved (h : RangeBounds) (v : ℝ) : Bool := if v < h.minRange then true else false

/-- `valueOrInit` (hierarchical_range_bounds.h:122-140). -/
def valueOrInit (h : RangeBounds) (init v : ℝ) : ℝ := if h.isUnobserved v then init else v

/-- The transformed image under `lower_bound_levels_` (hierarchical_range_bounds.h:100-103). -/
def lowerImage (h : RangeBounds) : Image ℝ := h.image.transform (h.valueOrInit unknownLower)
/-- The transformed image under `upper_bound_levels_` (hierarchical_range_bounds.h:104-107). -/
def upperImage (h : RangeBounds) : Image ℝ := h.image.transform (h.valueOrInit unknownUpper)
/-- The transformed image under `unobserved_mask_levels_` (hierarchical_range_bounds.h:108-111). -/
def maskImage (h : RangeBounds) : Image Bool := h.image.transform h.isUnobserved

/-- `lower_bound_levels_` (hierarchical_range_bounds.h:100-103). -/
def lowerLevels (h : RangeBounds) : Option (List (Image ℝ)) :=
  computeReducedPyramid h.wraps h.sx h.sy min unknownLower h.lowerImage
/-- `upper_bound_levels_` (hierarchical_range_bounds.h:104-107). -/
def upperLevels (h : RangeBounds) : Option (List (Image ℝ)) :=
  computeReducedPyramid h.wraps h.sx h.sy max unknownUpper h.upperImage
/-- `unobserved_mask_levels_` (hierarchical_range_bounds.h:108-111). -/
def maskLevels (h : RangeBounds) : Option (List (Image Bool)) :=
  computeReducedPyramid h.wraps h.sx h.sy or true h.maskImage

/-- `computeImageToPyramidScaleFactor` (hierarchical_range_bounds_inl.h:281-291): `strideU` and `strideV` are the image
distances between neighbouring rows and columns. -/
def scaleFactor (strideU strideV : ℝ) : Int × Int :=
  let m := min |strideU| |strideV|
  (⌊min (|strideU| / m) 2⌋, ⌊min (|strideV| / m) 2⌋)

/-- The constructor's `CHECK`s (hierarchical_range_bounds.h:20-36). -/
def create (image : Image ℝ) (wraps : Bool) (minRange : ℝ) (scale : Int × Int) : Option RangeBounds :=
  if (scale.1 = 1 ∨ scale.2 = 1) ∧ (1 ≤ scale.1 ∧ 1 ≤ scale.2) ∧ (scale.1 ≤ 2 ∧ scale.2 ≤ 2) then
    let h : RangeBounds := ⟨image, wraps, minRange, scale.1.toNat, scale.2.toNat⟩
    if h.lowerLevels.isSome ∧ h.upperLevels.isSome ∧ h.maskLevels.isSome then some h else none
  else none

/-- `getBounds(min_image_idx, max_image_idx).lower` (hierarchical_range_bounds_inl.h:35-164). -/
def getLowerBound (h : RangeBounds) (mn mx : Idx2) : Option ℝ := do
  intervalQuery h.wraps h.sx h.sy min h.lowerImage (← h.lowerLevels) mn mx
/-- `getBounds(min_image_idx, max_image_idx).upper` (hierarchical_range_bounds_inl.h:35-164). -/
def getUpperBound (h : RangeBounds) (mn mx : Idx2) : Option ℝ := do
  intervalQuery h.wraps h.sx h.sy max h.upperImage (← h.upperLevels) mn mx
/-- `hasUnobserved(min_image_idx, max_image_idx)` (hierarchical_range_bounds_inl.h:166-255). -/
def hasUnobserved (h : RangeBounds) (mn mx : Idx2) : Option Bool := do
  intervalQuery h.wraps h.sx h.sy or h.maskImage (← h.maskLevels) mn mx

end RangeBounds

/-- `UpdateType` (update_type.h:13-18). -/
inductive UpdateType where
  | fullyUnobserved | fullyFree | freeOrUnobserved | possiblyOccupied
  deriving DecidableEq

/-- `getUpdateType` (hierarchical_range_bounds_inl.h:257-279). -/
def RangeBounds.getUpdateType (h : RangeBounds) (mn mx : Idx2) (rangeMin rangeMax : ℝ) : Option UpdateType := do
  let mnC : Idx2 := (max mn.1 0, max mn.2 0)
  let mxC : Idx2 := (min mx.1 ((h.image.rows : Int) - 1), min mx.2 ((h.image.cols : Int) - 1))
  let lower ← h.getLowerBound mnC mxC
  let upper ← h.getUpperBound mnC mxC
  if upper < rangeMin then return .fullyUnobserved
  else if rangeMax < lower then
    if mn ≠ mnC ∨ mx ≠ mxC then return .freeOrUnobserved
    else if (← h.hasUnobserved mnC mxC) then return .freeOrUnobserved
    else return .fullyFree
  else return .possiblyOccupied

/-- A box in sensor coordinates, as returned by `cartesianToSensorAABB`. When the columns wrap around, `lo.v > hi.v` stands
for the box through the seam. Used at range_image_intersector_inl.h:11-71. -/
structure SensorBox where
  lo : SensorCoordinates
  hi : SensorCoordinates

/-- `RangeImageIntersector` (range_image_intersector.h:17-48). -/
structure Intersector where
  bounds : RangeBounds
  grid : ImageGrid
  minRange : ℝ
  maxRange : ℝ
  angleThreshold : ℝ
  thresholdFront : ℝ
  thresholdBack : ℝ

/-- The intersector for the continuous ray model (range_image_intersector.h:19-33, continuous_ray.h:54-60): no angular
padding. The pixel grid of the projector is `grid`. -/
def rayIntersector (bounds : RangeBounds) (grid : ImageGrid) (cfg : ProjectiveIntegratorConfig) (c : ContinuousRayConfig) :
    Intersector := ⟨bounds, grid, cfg.minRange, cfg.maxRange, 0, c.thresholdFront, c.thresholdBack⟩

/-- The intersector for the continuous beam model (range_image_intersector.h:19-33, continuous_beam.h:68-74). -/
def beamIntersector (bounds : RangeBounds) (grid : ImageGrid) (cfg : ProjectiveIntegratorConfig)
    (c : ContinuousBeamConfig) : Intersector :=
  ⟨bounds, grid, cfg.minRange, cfg.maxRange, c.angleThreshold, c.thresholdFront, c.thresholdBack⟩

/-- `determineUpdateType` (range_image_intersector_inl.h:11-71), for a cell whose sensor box is `box`; `containsSensor` is
`W_cell_aabb.containsPoint(t_W_C)`. The projector's dimensions are those of the image. -/
def Intersector.determineUpdateType (r : Intersector) (containsSensor : Bool) (box : SensorBox) : Option UpdateType :=
  if containsSensor then some .possiblyOccupied
  else if r.maxRange < box.lo.depth ∨ box.hi.depth < r.minRange then some .fullyUnobserved
  else
    let mn := r.grid.floorIndex (box.lo.u - r.angleThreshold) (box.lo.v - r.angleThreshold)
    let mx := r.grid.ceilIndex (box.hi.u + r.angleThreshold) (box.hi.v + r.angleThreshold)
    let rows : Int := r.bounds.image.rows
    let cols : Int := r.bounds.image.cols
    let xWraps := mx.1 < mn.1
    let yWraps := mx.2 < mn.2
    if xWraps ∨ (r.bounds.wraps = false ∧ yWraps) then
      let xOutside := mx.1 < 0 ∧ rows < mn.1
      let yOutside := mx.2 < 0 ∧ cols < mn.2
      if (¬ xWraps ∨ xOutside) ∧ (r.bounds.wraps = true ∨ ¬ yWraps ∨ yOutside) then some .fullyUnobserved
      else some .possiblyOccupied
    else if (mx.1 < 0 ∨ mx.2 < 0) ∨ (rows ≤ mn.1 ∨ cols ≤ mn.2) then some .fullyUnobserved
    else r.bounds.getUpdateType mn mx (box.lo.depth - r.thresholdBack) (box.hi.depth + r.thresholdFront)

end
end Wavemap
