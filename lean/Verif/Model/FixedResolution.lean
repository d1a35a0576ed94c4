import Mathlib.Analysis.SpecialFunctions.Trigonometric.Basic
import Verif.Model.Io
import Verif.Model.RangeImport
import Verif.Model.Projectors
import Verif.Model.WaveletIntegrator
/-!
# The fixed-resolution integrator

Models `integrator/projective/fixed_resolution/fixed_resolution_integrator.{h,cc}` and
`IntegratorBase::getEndPointOrMaxRange` (`integrator/impl/integrator_base_inl.h`), under `library/cpp`. The geometry is over `ℝ`; the updates
that are added to the map are rational, as the map's values, and given as a function of the cell.
-/
namespace Wavemap

/-! ## Writing to any map -/

/-- `addToCellValue` of `MapBase` (map_base.h:112), at time `now`. -/
def AnyMap.addToCellValue (now : ℚ) (i : Index 3) (u : ℚ) : AnyMap → AnyMap
  | .hashedBlocks m => .hashedBlocks (m.addToCellValue i u)
  | .waveletOctree m => .waveletOctree (m.addToCellValue i u)
  | .hashedWavelet m => .hashedWavelet (m.addToCellValue i u now)
  | .hashedChunked m => .hashedChunked (m.addToCellValue i u now)
  | .volumetricOctree m => .volumetricOctree (m.addToCellValue i u)

/-- A call of `addToCellValue` (map_base.h:112). -/
structure CellWrite where
  index : Index 3
  update : ℚ
  now : ℚ

/-- The calls in order. Auxiliary: the effect of the loop at fixed_resolution_integrator.cc:88-108 on the map. -/
def AnyMap.writeCells (m : AnyMap) (ws : List CellWrite) : AnyMap :=
  ws.foldl (fun m w => m.addToCellValue w.now w.index w.update) m

/-! ## The box -/

noncomputable section

/-- `AABB<Point3D>` (data_structure/aabb.h:15-30), over `ℝ`. -/
structure RBox where
  min : Vec3
  max : Vec3

/-- `includePoint` (aabb.h:32-35). -/
def RBox.includePoint (b : RBox) (p : Vec3) : RBox := ⟨fun k => Min.min (b.min k) (p k), fun k => Max.max (b.max k) (p k)⟩

/-- `AABB<Point3D>{}` (aabb.h:22-28); `big` is the largest number. -/
def RBox.empty (big : ℝ) : RBox := ⟨fun _ => big, fun _ => -big⟩

/-- `aabb_.min -= ..; aabb_.max += ..` (fixed_resolution_integrator.cc:55-56, 84-85). -/
def RBox.pad (b : RBox) (c : ℝ) : RBox := ⟨fun k => b.min k - c, fun k => b.max k + c⟩

/-- `max_lateral_component` (fixed_resolution_integrator.cc:52-54, 81-83). -/
def lateralPadding (paddingAngle paddingBack maxRange : ℝ) : ℝ := Max.max (Real.sin paddingAngle * maxRange) paddingBack

/-- `T_W_C * C_point`, where the rows of `R` are those of `R_C_W` (fixed_resolution_integrator.cc:7-57). -/
def fromSensorFrame (R : Fin 3 → Vec3) (t p : Vec3) : Vec3 := fun k => R 0 k * p 0 + R 1 k * p 1 + R 2 k * p 2 + t k

/-- `getEndPointOrMaxRange` (integrator_base_inl.h:27-36). -/
def endPointOrMaxRange (start stop : Vec3) (measured maxRange : ℝ) : Vec3 :=
  if maxRange < measured then fun k => start k + maxRange / measured * (stop k - start k) else stop

/-- The point that `importPointcloud` includes in the box (fixed_resolution_integrator.cc:18-32, 45-48), if any: it is skipped
if it is not valid or not in the image. -/
def boxPoint (P : Projector) (R : Fin 3 → Vec3) (t : Vec3) (maxRange : ℝ) (range : Image ℝ) (p : CloudPoint) : Option Vec3 :=
  match p with
  | none => none
  | some q =>
    if isMeasurementValid (some q) then
      let s := P.cartesianToSensor q
      if range.inBounds (P.grid.nearestIndexAndOffset s.u s.v).1 then
        some (fromSensorFrame R t (endPointOrMaxRange (fun _ => 0) ![q.1, q.2.1, q.2.2] s.depth maxRange))
      else none
    else none

/-- The body of the import loop (fixed_resolution_integrator.cc:17-49). -/
def fixedImportPoint (P : Projector) (minRange maxRange : ℝ) (R : Fin 3 → Vec3) (t : Vec3) (st : RangeState × RBox) (p : CloudPoint) :
    RangeState × RBox :=
  (importPoint P minRange st.1 p,
    match boxPoint P R t maxRange st.1.range p with
    | none => st.2
    | some q => st.2.includePoint q)

/-- `importPointcloud` (fixed_resolution_integrator.cc:7-57); `padding` is `max_lateral_component`. -/
def fixedImportPointcloud (P : Projector) (minRange maxRange : ℝ) (R : Fin 3 → Vec3) (t : Vec3) (big padding : ℝ) (st : RangeState)
    (cloud : List CloudPoint) : RangeState × RBox :=
  let r := cloud.foldl (fixedImportPoint P minRange maxRange R t)
    ({ st with range := st.range.setToConstant st.initial, offset := st.offset.setToConstant (0, 0) }, (RBox.empty big).includePoint t)
  (r.1, r.2.pad padding)

/-- `importRangeImage` (fixed_resolution_integrator.cc:59-86): the corners of the camera's field of view. -/
def fixedImportRangeImage (grid : ImageGrid) (toCartesian : SensorCoordinates → Vec3) (maxRange : ℝ) (R : Fin 3 → Vec3) (t : Vec3)
    (big padding : ℝ) (st : RangeState) (input : Image ℝ) (inputInitial : ℝ) : RangeState × RBox :=
  let corner := fun c : Nat =>
    let i : Idx2 := (input.rows * ((c &&& 1 : Nat) : Int), input.cols * (((c >>> 1) &&& 1 : Nat) : Int))
    fromSensorFrame R t (toCartesian ⟨(grid.indexToImage i).1, (grid.indexToImage i).2, maxRange⟩)
  (importRangeImage st input inputInitial,
    ((List.range 4).foldl (fun b c => RBox.includePoint b (corner c)) ((RBox.empty big).includePoint t)).pad padding)

/-- `aabb_min_index` (fixed_resolution_integrator.cc:92-93). -/
def RBox.minIndex (b : RBox) (w : ℝ) : Index 3 := fun k => ⌊b.min k * (1 / w) - 1 / 2⌋
/-- `aabb_max_index` (fixed_resolution_integrator.cc:94-95). -/
def RBox.maxIndex (b : RBox) (w : ℝ) : Index 3 := fun k => ⌈b.max k * (1 / w) - 1 / 2⌉

end

/-- `updateMap` (fixed_resolution_integrator.cc:88-108) for the indices of the box; `update` is `computeUpdate` at the center of the cell, `now` the time
at which the cell is written. -/
def fixedUpdateMap (mn mx : Index 3) (update now : Index 3 → ℚ) (m : AnyMap) : Option AnyMap :=
  (gridIndices mn mx).map fun l => m.writeCells (l.filterMap fun i => if kEpsilon < |update i| then some ⟨i, update i, now i⟩ else none)

end Wavemap
