import Verif.Model.RayTracing
import Verif.Props.Ray
import Verif.Props.FixedResolution
/-!
# C67: the ray-tracing integrator
-/
namespace Wavemap

/-! ## Specification -/

/-- A point that is used: not NaN, and its distance from the sensor is between 1 mm and 1 km. -/
def UsedPoint (start q : Point 3) : Prop :=
  let sq := (q 0 - start 0) ^ 2 + (q 1 - start 1) ^ 2 + (q 2 - start 2) ^ 2
  (1 / 1000) ^ 2 ≤ sq ∧ sq ≤ 1000 ^ 2

instance (start q : Point 3) : Decidable (UsedPoint start q) := by unfold UsedPoint; infer_instance

/-- The points that are used, in order. -/
def usedPoints (start : Point 3) (cloud : List (Option (Point 3))) : List (Point 3) :=
  cloud.filterMap fun p => p.bind fun q => if UsedPoint start q then some q else none

/-- The cells of the beam from `p` to `e`, in order: from the cell of `p` to one that contains `e` or has it on its boundary, by steps along one axis in
directions that never reverse, without repetition; and all touch the beam. -/
structure BeamCells (p e : Point 3) (w : ℚ) (cells : List (Index 3)) : Prop where
  first : cells.head? = some (pointToNearestIndex p (1 / w))
  last : ∃ last, cells.getLast? = some last ∧ ∀ i, (last i : ℚ) * w ≤ e i ∧ e i ≤ ((last i : ℚ) + 1) * w
  steps : ∃ stop, cells.IsChain (StepTowards stop)
  nodup : cells.Nodup
  touch : ∀ cell ∈ cells, ∃ t : ℚ, 0 ≤ t ∧ t ≤ 1 ∧ ∀ i, (cell i : ℚ) * w ≤ p i + t * (e i - p i) ∧ p i + t * (e i - p i) ≤ ((cell i : ℚ) + 1) * w

/-! ## The rays -/

theorem rayMeasurementValid_iff (p q : Point 3) : rayMeasurementValid p q = true ↔ UsedPoint p q := by
  unfold rayMeasurementValid UsedPoint
  simp only [Bool.and_eq_true, Bool.not_eq_true', decide_eq_false_iff_not, not_lt]
  norm_num

/-- There is one ray for each used point, in order; it consists of the cells of the beam from the sensor to the point, or to the maximum range. -/
theorem C67_rays (config : RayTracingConfig) (w : ℚ) (hw : 0 < w) (norm : Point 3 → Point 3 → ℚ) (start : Point 3)
    (cloud : List (Option (Point 3))) (rays : List TracedRay)
    (h : RaysOf config w norm start cloud rays) : rays.map TracedRay.point = usedPoints start cloud ∧
    ∀ r ∈ rays, BeamCells start (rayEndPoint start r.point (norm start r.point) config.maxRange) w r.cells := by
  induction h with
  | nil => exact ⟨rfl, fun _ h => nomatch h⟩
  | nan _ ih => exact ih
  | @skip q cloud rays hv _ ih =>
    have hu : ¬ UsedPoint start q := by rw [← rayMeasurementValid_iff, hv]; simp
    have e : usedPoints start (some q :: cloud) = usedPoints start cloud := by
      unfold usedPoints
      rw [List.filterMap_cons]
      simp only [Option.bind_some, if_neg hu]
    rw [e]
    exact ih
  | @ray q cells now cloud rays hv hc _ ih =>
    have hu : UsedPoint start q := (rayMeasurementValid_iff _ _).1 hv
    have e : usedPoints start (some q :: cloud) = q :: usedPoints start cloud := by
      unfold usedPoints
      rw [List.filterMap_cons]
      simp only [Option.bind_some, if_pos hu]
    rw [e]
    obtain ⟨h1, h2⟩ := ih
    refine ⟨by rw [List.map_cons, h1], fun r hr => ?_⟩
    rcases List.mem_cons.1 hr with rfl | hr
    · obtain ⟨a1, a2, a3, a4, a5⟩ := C30_point_ray _ _ w hw cells hc
      exact ⟨a1, a2, a3, a4, a5⟩
    · exact h2 r hr

/-- Every cloud has such rays. -/
theorem C67_total (config : RayTracingConfig) (w : ℚ) (norm : Point 3 → Point 3 → ℚ) (start : Point 3) (cloud : List (Option (Point 3))) :
    ∃ rays, RaysOf config w norm start cloud rays := by
  induction cloud with
  | nil => exact ⟨[], .nil⟩
  | cons p cloud ih =>
    obtain ⟨rays, h⟩ := ih
    cases p with
    | none => exact ⟨rays, .nan h⟩
    | some q =>
      by_cases hv : rayMeasurementValid start q = true
      · obtain ⟨cells, hc⟩ := C30_ray_iterable (by decide) (Ray.ofPoints start (rayEndPoint start q (norm start q) config.maxRange) w) (Nat.succ_pos _)
        exact ⟨_, .ray (now := fun _ => 0) hv hc h⟩
      · exact ⟨rays, .skip (by simpa using hv) h⟩

/-- A cloud with at least one point is integrated, or ignored if the pose is not valid: the process is not aborted. -/
theorem C67_completes_partial (config : RayTracingConfig) (w : ℚ) (norm : Point 3 → Point 3 → ℚ) (poseValid : Bool) (start : Point 3)
    (cloud : List (Option (Point 3))) (hc : cloud ≠ []) (m : AnyMap) :
    (∃ m', RayTraced config w norm poseValid start cloud m (.done m')) ∧
    ∀ o, RayTraced config w norm poseValid start cloud m o → ∃ m', o = .done m' := by
  refine ⟨?_, fun o h => ?_⟩
  · obtain ⟨rays, h⟩ := C67_total config w norm start cloud
    cases poseValid with
    | false => exact ⟨_, .invalid rfl⟩
    | true => exact ⟨_, .integrated rfl hc h⟩
  · cases h with
    | invalid _ => exact ⟨_, rfl⟩
    | empty _ h => exact absurd h hc
    | integrated _ _ _ => exact ⟨_, rfl⟩

/-- Finding: integrating an empty cloud with a valid pose always aborts the process. -/
theorem C67_empty_cloud_fails (config : RayTracingConfig) (w : ℚ) (norm : Point 3 → Point 3 → ℚ) (start : Point 3) (m : AnyMap) (o : Outcome AnyMap) :
    RayTraced config w norm true start [] m o ↔ o = .abort := by
  constructor
  · intro h
    cases h with
    | invalid h => cases h
    | empty _ _ => rfl
    | integrated _ h _ => exact absurd rfl h
  · rintro rfl
    exact .empty rfl rfl

example : ([none] : List (Option (Point 3))) ≠ [] := by simp

/-! ## The cells -/

theorem writes_filter (w : ℚ) (r : TracedRay) (hn : r.cells.Nodup) (j : Index 3) :
    ((r.writes w).filter fun x => decide (x.index = j)).map CellWrite.update =
      if j ∈ r.cells then [if j = pointToNearestIndex r.point (1 / w) then 17 / 20 else -2 / 5] else [] := by
  have e : ((r.writes w).filter fun x => decide (x.index = j)).map CellWrite.update =
      (r.cells.filter fun i => decide (i = j)).map fun i => constantRayUpdate defaultConstantRay w r.point i := by
    unfold TracedRay.writes
    rw [List.filter_map, List.map_map]
    rfl
  rw [e, filter_nodup_single _ hn]
  split
  · rw [List.map_cons, List.map_nil]
    unfold constantRayUpdate defaultConstantRay
    norm_num
  · rfl

/-- Integrating a cloud adds, for each used point in order, 0.85 to the cell of the point and -0.4 to every other cell of its beam, to each cell at most
once per point, and changes nothing else. (`combine` adds, and clamps if the map clamps.) Without a valid pose nothing is changed. The result is again a map
that results from a sequence of operations, so this holds for the next cloud too. -/
theorem C67_cells (config : RayTracingConfig) (w : ℚ) (hw : 0 < w) (norm : Point 3 → Point 3 → ℚ) (poseValid : Bool) (start : Point 3)
    (cloud : List (Option (Point 3))) (m m' : AnyMap) (hm : m.Mapped)
    (hcov : ∀ rays, RaysOf config w norm start cloud rays → ∀ r ∈ rays, ∀ i ∈ r.cells, m.Covers i)
    (h : RayTraced config w norm poseValid start cloud m (.done m')) :
    m'.Mapped ∧ (poseValid = false → m' = m) ∧
    (poseValid = true → ∃ rays, RaysOf config w norm start cloud rays ∧ ∀ j, m.Covers j → m'.cell j =
      rays.foldl (fun v r => if j ∈ r.cells then m.combine v (if j = pointToNearestIndex r.point (1 / w) then 17 / 20 else -2 / 5) else v) (m.cell j)) := by
  cases h with
  | invalid hp => exact ⟨hm, fun _ => rfl, fun h => by rw [hp] at h; cases h⟩
  | @integrated rays hp _ hr =>
    obtain ⟨a1, a2, a3, a4⟩ := hm.writeCells (rays.flatMap (TracedRay.writes w)) (by
      intro x hx
      obtain ⟨r, h1, h2⟩ := List.mem_flatMap.1 hx
      obtain ⟨i, h3, h4⟩ := List.mem_map.1 h2
      subst h4
      exact hcov rays hr r h1 i h3)
    refine ⟨a1, (fun h => by rw [hp] at h; cases h), fun _ => ⟨rays, hr, fun j hj => ?_⟩⟩
    rw [a4 j hj]
    have hn : ∀ r ∈ rays, r.cells.Nodup := fun r hr' => ((C67_rays config w hw norm start cloud rays hr).2 r hr').nodup
    clear a1 a2 a3 a4 hr hcov
    generalize m.cell j = v
    induction rays generalizing v with
    | nil => rfl
    | cons r rays ih =>
      rw [List.flatMap_cons, List.filter_append, List.map_append, List.foldl_append, List.foldl_cons, writes_filter w r (hn r List.mem_cons_self)]
      rw [ih (fun r' hr' => hn r' (List.mem_cons_of_mem _ hr'))]
      congr 1
      split <;> rfl

/-- For the maps that do not clamp: the value of a cell changes by 0.85 times the number of points in it, and -0.4 times the number of other beams that go
through it. -/
theorem C67_counts (config : RayTracingConfig) (w : ℚ) (hw : 0 < w) (norm : Point 3 → Point 3 → ℚ) (start : Point 3)
    (cloud : List (Option (Point 3))) (m m' : AnyMap) (hm : m.Mapped) (hadd : ∀ v u, m.combine v u = v + u)
    (hcov : ∀ rays, RaysOf config w norm start cloud rays → ∀ r ∈ rays, ∀ i ∈ r.cells, m.Covers i)
    (h : RayTraced config w norm true start cloud m (.done m')) :
    ∃ rays, RaysOf config w norm start cloud rays ∧ ∀ j, m.Covers j → m'.cell j = m.cell j +
      17 / 20 * rays.countP (fun r => decide (j ∈ r.cells ∧ j = pointToNearestIndex r.point (1 / w))) -
      2 / 5 * rays.countP (fun r => decide (j ∈ r.cells ∧ j ≠ pointToNearestIndex r.point (1 / w))) := by
  obtain ⟨rays, h1, h2⟩ := (C67_cells config w hw norm true start cloud m m' hm hcov h).2.2 rfl
  refine ⟨rays, h1, fun j hj => ?_⟩
  rw [h2 j hj]
  clear h1 h2
  generalize m.cell j = v
  induction rays generalizing v with
  | nil => simp
  | cons r rays ih =>
    rw [List.foldl_cons, ih, List.countP_cons, List.countP_cons]
    by_cases e1 : j ∈ r.cells <;> by_cases e2 : j = pointToNearestIndex r.point (1 / w)
    · have f1 : decide (j ∈ r.cells ∧ j = pointToNearestIndex r.point (1 / w)) = true := decide_eq_true ⟨e1, e2⟩
      have f2 : decide (j ∈ r.cells ∧ j ≠ pointToNearestIndex r.point (1 / w)) = false := decide_eq_false fun h => h.2 e2
      rw [f1, f2, if_pos e1, if_pos e2, hadd]
      push_cast
      simp
      ring
    · have f1 : decide (j ∈ r.cells ∧ j = pointToNearestIndex r.point (1 / w)) = false := decide_eq_false fun h => e2 h.2
      have f2 : decide (j ∈ r.cells ∧ j ≠ pointToNearestIndex r.point (1 / w)) = true := decide_eq_true ⟨e1, e2⟩
      rw [f1, f2, if_pos e1, if_neg e2, hadd]
      push_cast
      simp
      ring
    · have f1 : decide (j ∈ r.cells ∧ j = pointToNearestIndex r.point (1 / w)) = false := decide_eq_false fun h => e1 h.1
      have f2 : decide (j ∈ r.cells ∧ j ≠ pointToNearestIndex r.point (1 / w)) = false := decide_eq_false fun h => e1 h.1
      rw [f1, f2, if_neg e1]
      simp
    · have f1 : decide (j ∈ r.cells ∧ j = pointToNearestIndex r.point (1 / w)) = false := decide_eq_false fun h => e1 h.1
      have f2 : decide (j ∈ r.cells ∧ j ≠ pointToNearestIndex r.point (1 / w)) = false := decide_eq_false fun h => e1 h.1
      rw [f1, f2, if_neg e1]
      simp

/-- A point within the maximum range marks its own cell, the last of its beam, as occupied, and no other. (Except if the point lies on a cell edge as
described in C30: `C67_edge_fails`.) -/
theorem C67_hit_partial (start q : Point 3) (measured maxRange w : ℚ) (hw : 0 < w) (hmeas : measured ≤ maxRange)
    (hend : ¬ ((∃ i, EndsOnNearFace start q w i) ∧ ∃ j, EndsOnFarFace start q w j)) (cells : List (Index 3))
    (h : RayCells (Ray.ofPoints start (rayEndPoint start q measured maxRange) w) cells) :
    ∀ j ∈ cells, (j = pointToNearestIndex q (1 / w) ↔ cells.getLast? = some j) := by
  intro j hj
  unfold rayEndPoint at h
  rw [if_neg (not_lt.2 hmeas)] at h
  obtain ⟨_, hl, _⟩ := C30_point_ray_partial start q w hw hend cells h
  rw [hl]
  constructor
  · rintro rfl; rfl
  · intro e; exact (Option.some.inj e).symm

/-- A point that is farther than one cell beyond the maximum range, along some axis, marks no cell as occupied. -/
theorem C67_truncated (start q : Point 3) (measured maxRange w : ℚ) (hw : 0 < w) (hmax : 0 < maxRange) (hmeas : maxRange < measured)
    (hfar : ∃ k, w < |q k - rayEndPoint start q measured maxRange k|) (cells : List (Index 3))
    (h : RayCells (Ray.ofPoints start (rayEndPoint start q measured maxRange) w) cells) :
    ∀ j ∈ cells, j ≠ pointToNearestIndex q (1 / w) := by
  obtain ⟨_, _, _, _, htouch⟩ := C30_point_ray _ _ w hw cells h
  obtain ⟨k, hk⟩ := hfar
  rintro j hj rfl
  obtain ⟨t, t0, t1, ht⟩ := htouch _ hj
  obtain ⟨h1, h2⟩ := ht k
  obtain ⟨h3, h4⟩ := nearest_bounds q w hw k
  have e : rayEndPoint start q measured maxRange k = start k + maxRange / measured * (q k - start k) := by
    unfold rayEndPoint; rw [if_pos hmeas]
  rw [e] at hk h1 h2
  generalize hr : maxRange / measured = r at hk h1 h2
  have r0 : 0 ≤ r := by rw [← hr]; exact div_nonneg hmax.le (hmax.trans hmeas).le
  have r1 : r ≤ 1 := by rw [← hr, div_le_one (hmax.trans hmeas)]; exact hmeas.le
  have a1 : |q k - (start k + t * (start k + r * (q k - start k) - start k))| ≤ w := by
    rw [abs_le]
    constructor <;> linarith
  have a2 : q k - (start k + t * (start k + r * (q k - start k) - start k)) = (1 - t * r) * (q k - start k) := by ring
  have a3 : q k - (start k + r * (q k - start k)) = (1 - r) * (q k - start k) := by ring
  rw [a2, abs_mul] at a1
  rw [a3, abs_mul] at hk
  have a4 : t * r ≤ r := by nlinarith
  rw [abs_of_nonneg (by linarith)] at a1
  rw [abs_of_nonneg (by linarith)] at hk
  have a5 := abs_nonneg (q k - start k)
  nlinarith

/-! ## Where it fails -/

/-- The first axis with the smallest value. -/
def firstMin (t : Point 3) : Fin 3 := if t 0 ≤ t 1 ∧ t 0 ≤ t 2 then 0 else if t 1 ≤ t 2 then 1 else 2

theorem firstMin_isMin (t : Point 3) : IsMinCoeff t (firstMin t) := by
  intro j
  unfold firstMin
  by_cases h1 : t 0 ≤ t 1 ∧ t 0 ≤ t 2
  · rw [if_pos h1]
    fin_cases j
    · exact le_refl _
    · exact h1.1
    · exact h1.2
  · rw [if_neg h1]
    by_cases h2 : t 1 ≤ t 2
    · rw [if_pos h2]
      fin_cases j
      · exact le_of_not_ge fun h => h1 ⟨h, h.trans h2⟩
      · exact le_refl _
      · exact h2
    · rw [if_neg h2]
      fin_cases j
      · exact le_of_not_ge fun h => h1 ⟨h.trans (le_of_not_ge h2), h⟩
      · exact le_of_not_ge h2
      · exact le_refl _

/-- The cells that are visited if the first axis is taken whenever several boundaries coincide. -/
def visitFrom (r : Ray 3) : Nat → RayState 3 → List (Index 3)
  | 0, s => [s.current]
  | n + 1, s => s.current :: visitFrom r n (rayNext r (firstMin s.tNext) s)

/-- The cells of a ray, first axis first. -/
def firstAxisCells (p q : Point 3) (w : ℚ) : List (Index 3) :=
  visitFrom (Ray.ofPoints p q w) ((Ray.ofPoints p q w).lengthInSteps - 1) (rayBegin (Ray.ofPoints p q w))

theorem firstAxisCells_spec (p q : Point 3) (w : ℚ) : RayCells (Ray.ofPoints p q w) (firstAxisCells p q w) := by
  have h : ∀ (r : Ray 3) (n : Nat) (s : RayState 3), (visitFrom r n s).length = n + 1 ∧ RayVisit r s (visitFrom r n s) := by
    intro r n
    induction n with
    | zero => intro s; exact ⟨rfl, .last s⟩
    | succ n ih =>
      intro s
      obtain ⟨h1, h2⟩ := ih (rayNext r (firstMin s.tNext) s)
      exact ⟨by simp [visitFrom, h1], .next s _ _ (firstMin_isMin _) (by intro e; rw [e] at h1; simp at h1) h2⟩
  obtain ⟨h1, h2⟩ := h (Ray.ofPoints p q w) ((Ray.ofPoints p q w).lengthInSteps - 1) (rayBegin (Ray.ofPoints p q w))
  refine ⟨?_, h2⟩
  show (visitFrom _ _ _).length = _
  rw [h1]
  show (_ + 1 - 1) + 1 = _ + 1
  rfl

/-- Finding: a point on a cell edge may leave no mark. The beam from (-1.5, 0.5, 0.5) to the point (0, 2, 0.5) visits four cells, none of which is the
point's cell (-1, 2, 0), so all of them are marked as free and the obstacle is not recorded. -/
theorem C67_edge_fails :
    let start : Point 3 := ![-3 / 2, 1 / 2, 1 / 2]
    let q : Point 3 := ![0, 2, 1 / 2]
    let cells : List (Index 3) := [![-2, 0, 0], ![-1, 0, 0], ![-1, 1, 0], ![0, 1, 0]]
    UsedPoint start q ∧ RayCells (Ray.ofPoints start (rayEndPoint start q 3 20) 1) cells ∧
    ∀ i ∈ cells, constantRayUpdate defaultConstantRay 1 q i = -2 / 5 := by
  intro start q cells
  refine ⟨by decide +kernel, ?_, by decide +kernel⟩
  have e : rayEndPoint start q 3 20 = q := by unfold rayEndPoint; rw [if_neg (by norm_num)]
  have h := firstAxisCells_spec start q 1
  have h2 : firstAxisCells start q 1 = cells := by decide +kernel
  rw [h2] at h
  rw [e]
  exact h

/-- Finding: a point beyond the maximum range still marks an obstacle if it is in the same cell as the end of the truncated beam: here the range is 2, the
point 2.4 away. -/
theorem C67_truncated_fails :
    let start : Point 3 := fun _ => 1 / 2
    let q : Point 3 := ![29 / 10, 1 / 2, 1 / 2]
    let cells : List (Index 3) := [![0, 0, 0], ![1, 0, 0], ![2, 0, 0]]
    UsedPoint start q ∧ (q 0 - start 0) ^ 2 + (q 1 - start 1) ^ 2 + (q 2 - start 2) ^ 2 = (12 / 5) ^ 2 ∧ (2 : ℚ) < 12 / 5 ∧
    RayCells (Ray.ofPoints start (rayEndPoint start q (12 / 5) 2) 1) cells ∧ constantRayUpdate defaultConstantRay 1 q ![2, 0, 0] = 17 / 20 := by
  intro start q cells
  refine ⟨by decide +kernel, by decide +kernel, by decide +kernel, ?_, by decide +kernel⟩
  have h := firstAxisCells_spec start (rayEndPoint start q (12 / 5) 2) 1
  have h2 : firstAxisCells start (rayEndPoint start q (12 / 5) 2) 1 = cells := by decide +kernel
  rw [h2] at h
  exact h

/-- Finding: the minimum range is not used. With a minimum range of 0.5 a point at 0.2 marks its cell as occupied, as any other. -/
theorem C67_min_range_fails :
    let config : RayTracingConfig := ⟨1 / 2, 20⟩
    let start : Point 3 := fun _ => 1 / 20
    let q : Point 3 := ![1 / 4, 1 / 20, 1 / 20]
    let m : AnyMap := .hashedBlocks (HashedBlocks.create ⟨1 / 10, -2, 4⟩ 0)
    config.isValid = true ∧ (q 0 - start 0) ^ 2 + (q 1 - start 1) ^ 2 + (q 2 - start 2) ^ 2 = (1 / 5) ^ 2 ∧
    ∃ m', RayTraced config (1 / 10) (fun _ _ => 1 / 5) true start [some q] m (.done m') ∧ m'.cell ![2, 0, 0] = 17 / 20 := by
  intro config start q m
  refine ⟨by decide +kernel, by decide +kernel,
    m.writeCells ([(⟨q, firstAxisCells start q (1 / 10), fun _ => 0⟩ : TracedRay)].flatMap (TracedRay.writes (1 / 10))), ?_, by decide +kernel⟩
  refine .integrated rfl (by simp) (.ray (by decide +kernel) ?_ .nil)
  have e : rayEndPoint start q (1 / 5) config.maxRange = q := by
    unfold rayEndPoint; rw [if_neg (by show ¬ (20 : ℚ) < 1 / 5; norm_num)]
  rw [e]
  exact firstAxisCells_spec _ _ _

/-! ## The hypotheses are met -/

example : -- a cloud with a NaN point, a point at the sensor, and two points: the second beam goes through the first one's cell
    let start : Point 3 := fun _ => 1 / 2
    let cloud : List (Option (Point 3)) := [none, some start, some ![5 / 2, 1 / 2, 1 / 2], some ![7 / 2, 1 / 2, 3 / 4]]
    let m : AnyMap := .hashedBlocks (HashedBlocks.create ⟨1, -2, 4⟩ 0)
    m.Mapped ∧ usedPoints start cloud = [![5 / 2, 1 / 2, 1 / 2], ![7 / 2, 1 / 2, 3 / 4]] ∧
    ∃ m', RayTraced ⟨1 / 2, 20⟩ 1 (fun _ _ => 3) true start cloud m (.done m') ∧ m'.cell ![2, 0, 0] = 9 / 20 ∧ m'.cell ![3, 0, 0] = 17 / 20 ∧
      m'.cell ![1, 0, 0] = -4 / 5 ∧ m'.cell ![4, 0, 0] = 0 := by
  intro start cloud m
  refine ⟨⟨⟨1, -2, 4⟩, 0, [], by decide +kernel, rfl⟩, by decide +kernel,
    m.writeCells ([(⟨![5 / 2, 1 / 2, 1 / 2], firstAxisCells start ![5 / 2, 1 / 2, 1 / 2] 1, fun _ => 0⟩ : TracedRay),
      ⟨![7 / 2, 1 / 2, 3 / 4], firstAxisCells start ![7 / 2, 1 / 2, 3 / 4] 1, fun _ => 0⟩].flatMap (TracedRay.writes 1)), ?_,
    by decide +kernel, by decide +kernel, by decide +kernel, by decide +kernel⟩
  have e : ∀ q : Point 3, rayEndPoint start q 3 20 = q := by
    intro q; unfold rayEndPoint; rw [if_neg (by norm_num)]
  refine .integrated rfl (by simp [cloud]) (.nan (.skip (by decide +kernel) (.ray (by decide +kernel) ?_ (.ray (by decide +kernel) ?_ .nil))))
  · show RayCells (Ray.ofPoints start (rayEndPoint start _ 3 20) 1) _
    rw [e]; exact firstAxisCells_spec _ _ _
  · show RayCells (Ray.ofPoints start (rayEndPoint start _ 3 20) 1) _
    rw [e]; exact firstAxisCells_spec _ _ _

example : -- maps that do not clamp, and have room for every cell
    let m : AnyMap := .hashedWavelet (.create ⟨1, -2, 4, 2, 5⟩)
    m.Mapped ∧ (∀ v u, m.combine v u = v + u) ∧ ∀ i, m.Covers i :=
  ⟨⟨⟨1, -2, 4, 2, 5⟩, by decide +kernel, by decide, [], (fun _ h => nomatch h), rfl⟩, fun _ _ => rfl, fun _ => trivial⟩

example : -- a point far beyond the maximum range
    let start : Point 3 := fun _ => 1 / 2
    ∃ k, (1 : ℚ) < |(![41 / 2, 1 / 2, 1 / 2] : Point 3) k - rayEndPoint start ![41 / 2, 1 / 2, 1 / 2] 20 10 k| := ⟨0, by decide +kernel⟩

/-- The hit cell of a ray that ends inside a cell is the last one traced. -/
example (cells : List (Index 3)) (h : RayCells (Ray.ofPoints ![1 / 2, 1 / 3, 1 / 4] (rayEndPoint ![1 / 2, 1 / 3, 1 / 4] ![7 / 2, -5 / 2, 1 / 4] 4 20) 1) cells) :
    ∀ j ∈ cells, (j = ![3, -3, 0] ↔ cells.getLast? = some j) := by
  have hend : ∀ i, ¬ EndsOnNearFace (![1 / 2, 1 / 3, 1 / 4] : Point 3) ![7 / 2, -5 / 2, 1 / 4] 1 i := by
    unfold EndsOnNearFace; decide +kernel
  have := C67_hit_partial ![1 / 2, 1 / 3, 1 / 4] ![7 / 2, -5 / 2, 1 / 4] 4 20 1 one_pos (by norm_num) (fun h => h.1.elim fun i hi => hend i hi) cells h
  have e2 : pointToNearestIndex (![7 / 2, -5 / 2, 1 / 4] : Point 3) (1 / 1) = ![3, -3, 0] := by decide +kernel
  rwa [e2] at this

end Wavemap
