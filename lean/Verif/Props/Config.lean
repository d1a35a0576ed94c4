import Verif.Lemmas.Config
import Mathlib.Tactic.NormNum
import Mathlib.Tactic.Ring

/-!
# C50, C51, C52, C63: parameters, units, type names and factories

The specification of what a parameter says is in `Verif/Spec/Config.lean`.
-/

namespace Wavemap

/-! ## C51: values with units -/

/-- A value with a unit is read exactly from the maps with one entry that gives a number in a known unit of the
right kind; its value is that number times the size of the unit. Everything else is rejected: bare numbers, maps with no or
several entries, unknown units, units of another kind, and values that are not numbers. -/
theorem C51_reads (unit : SiUnit) (v : Param.Value) (x : ℚ) :
    valueWithUnitFrom unit v = some x ↔ ReadsUnit unit v x := (value_with_unit_iff unit v x).symm

example : valueWithUnitFrom .meters (.map [("cm", .int 25)]) = some (1 / 4) :=
  (C51_reads _ _ _).2 ⟨"cm", .int 25, 25, 1 / 100, rfl, .centimeter (by decide), Or.inr ⟨25, rfl, by norm_num⟩,
    by norm_num⟩

example : valueWithUnitFrom .meters (.map [("deg", .int 25)]) = none := by decide +kernel

/-- A quantity has the same value in whatever unit it is written. -/
theorem C51_units_agree (x : ℚ) :
    valueWithUnitFrom .meters (.map [("dm", .float (10 * x))]) = valueWithUnitFrom .meters (.map [("m", .float x)]) ∧
    valueWithUnitFrom .meters (.map [("cm", .float (100 * x))]) = valueWithUnitFrom .meters (.map [("m", .float x)]) ∧
    valueWithUnitFrom .meters (.map [("mm", .float (1000 * x))]) =
      valueWithUnitFrom .meters (.map [("m", .float x)]) ∧
    valueWithUnitFrom .radians (.map [("deg", .float (180 * x))]) =
      valueWithUnitFrom .radians (.map [("rad", .float (kPiQ * x))]) ∧
    ∀ i : Int, valueWithUnitFrom .seconds (.map [("s", .int i)]) =
      valueWithUnitFrom .seconds (.map [("s", .float i)]) := by
  have hu : ∀ (u : SiUnit) (n : String) (f y : ℚ), UnitIs n u f →
      valueWithUnitFrom u (.map [(n, .float y)]) = some (y * f) := fun u n f y h =>
    (C51_reads _ _ _).2 ⟨n, _, y, f, rfl, h, Or.inl rfl, rfl⟩
  have m := hu .meters "m" 1 x (.meter (by decide))
  refine ⟨?_, ?_, ?_, ?_, fun i => ?_⟩
  · rw [m, hu .meters "dm" (1 / 10) _ (.decimeter (by decide))]; congr 1; ring
  · rw [m, hu .meters "cm" (1 / 100) _ (.centimeter (by decide))]; congr 1; ring
  · rw [m, hu .meters "mm" (1 / 1000) _ (.millimeter (by decide))]; congr 1; ring
  · rw [hu .radians "deg" (kPiQ / 180) _ (.degree (by decide)), hu .radians "rad" 1 _ (.radian (by decide))]
    congr 1; ring
  · rw [hu .seconds "s" 1 _ (.second (by decide))]
    exact (C51_reads _ _ _).2 ⟨"s", _, i, 1, rfl, .second (by decide), Or.inr ⟨i, rfl, rfl⟩, rfl⟩

/-- The spellings of a unit are synonyms. -/
theorem C51_synonyms (u : SiUnit) (w : Param.Value) :
    ∀ p ∈ [("m", "meters"), ("dm", "decimeters"), ("cm", "centimeters"), ("mm", "millimeters"), ("rad", "radians"),
      ("deg", "degrees"), ("px", "pixels"), ("s", "seconds"), ("sec", "seconds")],
      valueWithUnitFrom u (.map [(p.1, w)]) = valueWithUnitFrom u (.map [(p.2, w)]) := by
  have h : ∀ a b : String, getUnitToSi a = getUnitToSi b →
      valueWithUnitFrom u (.map [(a, w)]) = valueWithUnitFrom u (.map [(b, w)]) := by
    intro a b hab
    simp only [valueWithUnitFrom, Param.Value.asMap, hab]
  simp only [List.forall_mem_cons, List.not_mem_nil, false_implies, implies_true, and_true]
  exact ⟨h _ _ rfl, h _ _ rfl, h _ _ rfl, h _ _ rfl, h _ _ rfl, h _ _ rfl, h _ _ rfl, h _ _ rfl, h _ _ rfl⟩

/-! ## C52: type names -/

/-- For any list of distinct names: a name stands for the position at which it is listed, that position is written as that
name, unknown names and positions outside the list are invalid, and a selector made from a number is that number if
valid and the invalid id otherwise. -/
theorem C52_names_and_ids (names : List String) (nd : names.Nodup) :
    (∀ (k : Nat) (s : String), names[k]? = some s →
      TypeSelector.toTypeId names s = k ∧ TypeSelector.toStr names k = s ∧ TypeSelector.isValid names k = true ∧
        TypeSelector.ofTypeId names k = k) ∧
    (∀ s, s ∉ names → TypeSelector.toTypeId names s = -1 ∧ TypeSelector.fromName names s = none) ∧
    (∀ i : Int, i < 0 ∨ (names.length : Int) ≤ i →
      TypeSelector.isValid names i = false ∧ TypeSelector.toStr names i = "Invalid" ∧
        TypeSelector.ofTypeId names i = -1) := by
  have hlt : ∀ (k : Nat) (s : String), names[k]? = some s → k < names.length := by
    intro k s h
    by_contra hge
    rw [List.getElem?_eq_none (by omega)] at h
    cases h
  refine ⟨fun k s hk => ?_, fun s hs => ?_, fun i hi => ?_⟩
  · have hv : TypeSelector.isValid names k = true := by simp [TypeSelector.isValid, hlt k s hk]
    refine ⟨?_, ?_, hv, ?_⟩
    · rcases toTypeIdFrom_cases s names 0 with ⟨hno, -⟩ | ⟨k', hk', -, he⟩
      · exact absurd (List.mem_of_getElem? hk) hno
      · have h1 := hlt k s hk
        have h2 := hlt k' s hk'
        rw [List.getElem?_eq_getElem h1] at hk
        rw [List.getElem?_eq_getElem h2] at hk'
        have := (List.Nodup.getElem_inj_iff nd).1 ((Option.some.inj hk').trans (Option.some.inj hk).symm)
        unfold TypeSelector.toTypeId
        rw [he, this]
        simp
    · unfold TypeSelector.toStr
      rw [if_pos hv]
      simp [hk]
    · unfold TypeSelector.ofTypeId
      rw [if_pos hv]
  · have h1 : TypeSelector.toTypeId names s = -1 := by
      rcases toTypeIdFrom_cases s names 0 with ⟨-, he⟩ | ⟨k', hk', -, -⟩
      · exact he
      · exact absurd (List.mem_of_getElem? hk') hs
    refine ⟨h1, ?_⟩
    unfold TypeSelector.fromName
    rw [h1]
    simp [TypeSelector.isValid]
  · have hv : TypeSelector.isValid names i = false := by
      simp only [TypeSelector.isValid, Bool.and_eq_false_iff, decide_eq_false_iff_not]
      omega
    refine ⟨hv, ?_, ?_⟩
    · unfold TypeSelector.toStr
      rw [hv]
      rfl
    · unfold TypeSelector.ofTypeId
      rw [hv]
      rfl

/-- A type is read from a parameter exactly if the parameter, or its entry `"type"`, is one of the names. -/
theorem C52_from_params (names : List String) (nd : names.Nodup) (v : Param.Value) (wf : v.Wf) (i : Int) :
    TypeSelector.fromParams names v = some i ↔ ReadsType names v i := (reads_type_iff names nd v wf i).symm

/-- The names of every selector are distinct (and none of them is `"Invalid"`), so the two theorems above apply. -/
theorem C52_names_distinct :
    ∀ names ∈ [mapTypeNames, integratorTypeNames, projectorTypeNames, measurementModelTypeNames,
      beamSelectorTypeNames, mapOperationTypeNames, siUnitNames, updateTypeNames, occupancyNames, adjacencyNames,
      loggingLevelNames, storageFormatNames, rosInputTypeNames, pointcloudTopicTypeNames, mapRosOperationTypeNames,
      rosLoggingLevelNames, voxelColorModeNames, sliceColorModeNames, cellSelectionModeNames, sourceModeNames],
      names.Nodup ∧ "Invalid" ∉ names := by decide

example : TypeSelector.fromParams mapTypeNames (.map [("min_cell_width", .int 1), ("type", .str "octree")]) = some 1 := by
  decide

/-! ## C50: configs -/

/-- The configs of the map data structures are read from the entries of the parameter map: every setting is what
the entry of its name says or, if there is no such entry or it cannot be read, the documented default; entries of other names,
their order and the type entry have no influence. -/
theorem C50_map_configs (es : List (String × Param.Value)) (wf : (Param.Value.map es).Wf) :
    (∃ c, Cfg.MapBase.from (.map es) = some c ∧
      FieldFrom es "min_cell_width" (ReadsUnit .meters) (1 / 10) c.minCellWidth ∧
      FieldFrom es "min_log_odds" ReadsFloat (-2) c.minLogOdds ∧
      FieldFrom es "max_log_odds" ReadsFloat 4 c.maxLogOdds) ∧
    (∃ c, Cfg.VolumetricOctree.from (.map es) = some c ∧
      FieldFrom es "min_cell_width" (ReadsUnit .meters) (1 / 10) c.minCellWidth ∧
      FieldFrom es "min_log_odds" ReadsFloat (-2) c.minLogOdds ∧
      FieldFrom es "max_log_odds" ReadsFloat 4 c.maxLogOdds ∧
      FieldFrom es "tree_height" ReadsInt 14 c.treeHeight) ∧
    (∃ c, Cfg.WaveletOctree.from (.map es) = some c ∧
      FieldFrom es "min_cell_width" (ReadsUnit .meters) (1 / 10) c.minCellWidth ∧
      FieldFrom es "min_log_odds" ReadsFloat (-2) c.minLogOdds ∧
      FieldFrom es "max_log_odds" ReadsFloat 4 c.maxLogOdds ∧
      FieldFrom es "tree_height" ReadsInt 14 c.treeHeight) ∧
    (∃ c, Cfg.HashedWaveletOctree.from (.map es) = some c ∧
      FieldFrom es "min_cell_width" (ReadsUnit .meters) (1 / 10) c.minCellWidth ∧
      FieldFrom es "min_log_odds" ReadsFloat (-2) c.minLogOdds ∧
      FieldFrom es "max_log_odds" ReadsFloat 4 c.maxLogOdds ∧
      FieldFrom es "tree_height" ReadsInt 6 c.treeHeight ∧
      FieldFrom es "only_prune_blocks_if_unused_for" (ReadsUnit .seconds) 5 c.onlyPruneBlocksIfUnusedFor) ∧
    (∃ c, Cfg.HashedChunkedWaveletOctree.from (.map es) = some c ∧
      FieldFrom es "min_cell_width" (ReadsUnit .meters) (1 / 10) c.minCellWidth ∧
      FieldFrom es "min_log_odds" ReadsFloat (-2) c.minLogOdds ∧
      FieldFrom es "max_log_odds" ReadsFloat 4 c.maxLogOdds ∧
      FieldFrom es "tree_height" ReadsInt 6 c.treeHeight ∧
      FieldFrom es "only_prune_blocks_if_unused_for" (ReadsUnit .seconds) 5 c.onlyPruneBlocksIfUnusedFor) := by
  have nd := wf.nodup
  have wc := wf.children
  refine ⟨?_, ?_, ?_, ?_, ?_⟩
  · refine ⟨_, rfl, ?_, ?_, ?_⟩
    · config_field Cfg.MapBase.members Cfg.MapBase.minCellWidth using (reads_unit_iff .meters)
    · config_field Cfg.MapBase.members Cfg.MapBase.minLogOdds using reads_float_iff
    · config_field Cfg.MapBase.members Cfg.MapBase.maxLogOdds using reads_float_iff
  · refine ⟨_, rfl, ?_, ?_, ?_, ?_⟩
    · config_field Cfg.VolumetricOctree.members Cfg.VolumetricOctree.minCellWidth using (reads_unit_iff .meters)
    · config_field Cfg.VolumetricOctree.members Cfg.VolumetricOctree.minLogOdds using reads_float_iff
    · config_field Cfg.VolumetricOctree.members Cfg.VolumetricOctree.maxLogOdds using reads_float_iff
    · config_field Cfg.VolumetricOctree.members Cfg.VolumetricOctree.treeHeight using reads_int_iff
  · refine ⟨_, rfl, ?_, ?_, ?_, ?_⟩
    · config_field Cfg.WaveletOctree.members Cfg.WaveletOctree.minCellWidth using (reads_unit_iff .meters)
    · config_field Cfg.WaveletOctree.members Cfg.WaveletOctree.minLogOdds using reads_float_iff
    · config_field Cfg.WaveletOctree.members Cfg.WaveletOctree.maxLogOdds using reads_float_iff
    · config_field Cfg.WaveletOctree.members Cfg.WaveletOctree.treeHeight using reads_int_iff
  · refine ⟨_, rfl, ?_, ?_, ?_, ?_, ?_⟩
    · config_field Cfg.HashedWaveletOctree.members Cfg.HashedWaveletOctree.minCellWidth using (reads_unit_iff .meters)
    · config_field Cfg.HashedWaveletOctree.members Cfg.HashedWaveletOctree.minLogOdds using reads_float_iff
    · config_field Cfg.HashedWaveletOctree.members Cfg.HashedWaveletOctree.maxLogOdds using reads_float_iff
    · config_field Cfg.HashedWaveletOctree.members Cfg.HashedWaveletOctree.treeHeight using reads_int_iff
    · config_field Cfg.HashedWaveletOctree.members Cfg.HashedWaveletOctree.onlyPruneBlocksIfUnusedFor using (reads_unit_iff .seconds)
  · refine ⟨_, rfl, ?_, ?_, ?_, ?_, ?_⟩
    · config_field Cfg.HashedChunkedWaveletOctree.members Cfg.HashedChunkedWaveletOctree.minCellWidth using (reads_unit_iff .meters)
    · config_field Cfg.HashedChunkedWaveletOctree.members Cfg.HashedChunkedWaveletOctree.minLogOdds using reads_float_iff
    · config_field Cfg.HashedChunkedWaveletOctree.members Cfg.HashedChunkedWaveletOctree.maxLogOdds using reads_float_iff
    · config_field Cfg.HashedChunkedWaveletOctree.members Cfg.HashedChunkedWaveletOctree.treeHeight using reads_int_iff
    · config_field Cfg.HashedChunkedWaveletOctree.members Cfg.HashedChunkedWaveletOctree.onlyPruneBlocksIfUnusedFor using (reads_unit_iff .seconds)

/-- The same for the configs of the map operations. -/
theorem C50_operation_configs (es : List (String × Param.Value)) (wf : (Param.Value.map es).Wf) :
    (∃ c, Cfg.ThresholdMapOperation.from (.map es) = some c ∧
      FieldFrom es "once_every" (ReadsUnit .seconds) 2 c.onceEvery) ∧
    (∃ c, Cfg.PruneMapOperation.from (.map es) = some c ∧
      FieldFrom es "once_every" (ReadsUnit .seconds) 10 c.onceEvery) ∧
    (∃ c, Cfg.CropMapOperation.from (.map es) = some c ∧
      FieldFrom es "once_every" (ReadsUnit .seconds) 10 c.onceEvery ∧
      FieldFrom es "body_frame" ReadsString "body" c.bodyFrame ∧
      FieldFrom es "remove_blocks_beyond_distance" (ReadsUnit .meters) 0 c.removeBlocksBeyondDistance) ∧
    (∃ c, Cfg.PublishMapOperation.from (.map es) = some c ∧
      FieldFrom es "once_every" (ReadsUnit .seconds) 2 c.onceEvery ∧
      FieldFrom es "max_num_blocks_per_msg" ReadsInt 1000 c.maxNumBlocksPerMsg ∧
      FieldFrom es "topic" ReadsString "map" c.topic) ∧
    (∃ c, Cfg.PublishPointcloudOperation.from (.map es) = some c ∧
      FieldFrom es "once_every" (ReadsUnit .seconds) 1 c.onceEvery ∧
      FieldFrom es "occupancy_threshold_log_odds" ReadsFloat (1 / 1000) c.occupancyThresholdLogOdds ∧
      FieldFrom es "only_publish_changed_blocks" ReadsBool true c.onlyPublishChangedBlocks ∧
      FieldFrom es "topic" ReadsString "obstacle_pointcloud" c.topic) := by
  have nd := wf.nodup
  have wc := wf.children
  refine ⟨?_, ?_, ?_, ?_, ?_⟩
  · refine ⟨_, rfl, ?_⟩
    · config_field Cfg.ThresholdMapOperation.members Cfg.ThresholdMapOperation.onceEvery using (reads_unit_iff .seconds)
  · refine ⟨_, rfl, ?_⟩
    · config_field Cfg.PruneMapOperation.members Cfg.PruneMapOperation.onceEvery using (reads_unit_iff .seconds)
  · refine ⟨_, rfl, ?_, ?_, ?_⟩
    · config_field Cfg.CropMapOperation.members Cfg.CropMapOperation.onceEvery using (reads_unit_iff .seconds)
    · config_field Cfg.CropMapOperation.members Cfg.CropMapOperation.bodyFrame using reads_string_iff
    · config_field Cfg.CropMapOperation.members Cfg.CropMapOperation.removeBlocksBeyondDistance using (reads_unit_iff .meters)
  · refine ⟨_, rfl, ?_, ?_, ?_⟩
    · config_field Cfg.PublishMapOperation.members Cfg.PublishMapOperation.onceEvery using (reads_unit_iff .seconds)
    · config_field Cfg.PublishMapOperation.members Cfg.PublishMapOperation.maxNumBlocksPerMsg using reads_int_iff
    · config_field Cfg.PublishMapOperation.members Cfg.PublishMapOperation.topic using reads_string_iff
  · refine ⟨_, rfl, ?_, ?_, ?_, ?_⟩
    · config_field Cfg.PublishPointcloudOperation.members Cfg.PublishPointcloudOperation.onceEvery using (reads_unit_iff .seconds)
    · config_field Cfg.PublishPointcloudOperation.members Cfg.PublishPointcloudOperation.occupancyThresholdLogOdds using reads_float_iff
    · config_field Cfg.PublishPointcloudOperation.members Cfg.PublishPointcloudOperation.onlyPublishChangedBlocks using reads_bool_iff
    · config_field Cfg.PublishPointcloudOperation.members Cfg.PublishPointcloudOperation.topic using reads_string_iff

/-- The same for the configs of the integrators and measurement models. -/
theorem C50_integrator_configs (es : List (String × Param.Value)) (wf : (Param.Value.map es).Wf) :
    (∃ c, Cfg.RayTracingIntegrator.from (.map es) = some c ∧
      FieldFrom es "min_range" (ReadsUnit .meters) (1 / 2) c.minRange ∧
      FieldFrom es "max_range" (ReadsUnit .meters) 20 c.maxRange) ∧
    (∃ c, Cfg.ProjectiveIntegrator.from (.map es) = some c ∧
      FieldFrom es "min_range" (ReadsUnit .meters) (1 / 2) c.minRange ∧
      FieldFrom es "max_range" (ReadsUnit .meters) 20 c.maxRange ∧
      FieldFrom es "max_update_resolution" (ReadsUnit .meters) 0 c.maxUpdateResolution ∧
      FieldFrom es "termination_update_error" ReadsFloat (1 / 10) c.terminationUpdateError) ∧
    (∃ c, Cfg.ConstantRay.from (.map es) = some c ∧
      FieldFrom es "log_odds_occupied" ReadsFloat (17 / 20) c.logOddsOccupied ∧
      FieldFrom es "log_odds_free" ReadsFloat (-2 / 5) c.logOddsFree) ∧
    (∃ c, Cfg.ContinuousRay.from (.map es) = some c ∧
      FieldFrom es "range_sigma" (ReadsUnit .meters) 0 c.rangeSigma ∧
      FieldFrom es "scaling_free" ReadsFloat (1 / 2) c.scalingFree ∧
      FieldFrom es "scaling_occupied" ReadsFloat (1 / 2) c.scalingOccupied ∧
      FieldFrom es "beam_selector_type" (ReadsType beamSelectorTypeNames) 0 c.beamSelectorType) ∧
    (∃ c, Cfg.ContinuousBeam.from (.map es) = some c ∧
      FieldFrom es "angle_sigma" (ReadsUnit .radians) 0 c.angleSigma ∧
      FieldFrom es "range_sigma" (ReadsUnit .meters) 0 c.rangeSigma ∧
      FieldFrom es "scaling_free" ReadsFloat (1 / 2) c.scalingFree ∧
      FieldFrom es "scaling_occupied" ReadsFloat (1 / 2) c.scalingOccupied ∧
      FieldFrom es "beam_selector_type" (ReadsType beamSelectorTypeNames) 1 c.beamSelectorType) := by
  have nd := wf.nodup
  have wc := wf.children
  refine ⟨?_, ?_, ?_, ?_, ?_⟩
  · refine ⟨_, rfl, ?_, ?_⟩
    · config_field Cfg.RayTracingIntegrator.members Cfg.RayTracingIntegrator.minRange using (reads_unit_iff .meters)
    · config_field Cfg.RayTracingIntegrator.members Cfg.RayTracingIntegrator.maxRange using (reads_unit_iff .meters)
  · refine ⟨_, rfl, ?_, ?_, ?_, ?_⟩
    · config_field Cfg.ProjectiveIntegrator.members Cfg.ProjectiveIntegrator.minRange using (reads_unit_iff .meters)
    · config_field Cfg.ProjectiveIntegrator.members Cfg.ProjectiveIntegrator.maxRange using (reads_unit_iff .meters)
    · config_field Cfg.ProjectiveIntegrator.members Cfg.ProjectiveIntegrator.maxUpdateResolution using (reads_unit_iff .meters)
    · config_field Cfg.ProjectiveIntegrator.members Cfg.ProjectiveIntegrator.terminationUpdateError using reads_float_iff
  · refine ⟨_, rfl, ?_, ?_⟩
    · config_field Cfg.ConstantRay.members Cfg.ConstantRay.logOddsOccupied using reads_float_iff
    · config_field Cfg.ConstantRay.members Cfg.ConstantRay.logOddsFree using reads_float_iff
  · refine ⟨_, rfl, ?_, ?_, ?_, ?_⟩
    · config_field Cfg.ContinuousRay.members Cfg.ContinuousRay.rangeSigma using (reads_unit_iff .meters)
    · config_field Cfg.ContinuousRay.members Cfg.ContinuousRay.scalingFree using reads_float_iff
    · config_field Cfg.ContinuousRay.members Cfg.ContinuousRay.scalingOccupied using reads_float_iff
    · config_field Cfg.ContinuousRay.members Cfg.ContinuousRay.beamSelectorType using (reads_type_iff beamSelectorTypeNames (by decide))
  · refine ⟨_, rfl, ?_, ?_, ?_, ?_, ?_⟩
    · config_field Cfg.ContinuousBeam.members Cfg.ContinuousBeam.angleSigma using (reads_unit_iff .radians)
    · config_field Cfg.ContinuousBeam.members Cfg.ContinuousBeam.rangeSigma using (reads_unit_iff .meters)
    · config_field Cfg.ContinuousBeam.members Cfg.ContinuousBeam.scalingFree using reads_float_iff
    · config_field Cfg.ContinuousBeam.members Cfg.ContinuousBeam.scalingOccupied using reads_float_iff
    · config_field Cfg.ContinuousBeam.members Cfg.ContinuousBeam.beamSelectorType using (reads_type_iff beamSelectorTypeNames (by decide))

/-- The same for the configs of the projection models. The angular ranges of the spherical and Ouster models are
configs of their own. -/
theorem C50_projector_configs (es : List (String × Param.Value)) (wf : (Param.Value.map es).Wf) :
    (∃ c, Cfg.CircularProjector.from (.map es) = some c ∧
      FieldFrom es "min_angle" (ReadsUnit .radians) 0 c.minAngle ∧
      FieldFrom es "max_angle" (ReadsUnit .radians) 0 c.maxAngle ∧
      FieldFrom es "num_cells" ReadsInt 0 c.numCells) ∧
    (∃ c, Cfg.SphericalProjector.from (.map es) = some c ∧
      FieldFrom es "elevation" ReadsCircular {} c.elevation ∧
      FieldFrom es "azimuth" ReadsCircular {} c.azimuth) ∧
    (∃ c, Cfg.OusterProjector.from (.map es) = some c ∧
      FieldFrom es "elevation" ReadsCircular {} c.elevation ∧
      FieldFrom es "azimuth" ReadsCircular {} c.azimuth ∧
      FieldFrom es "lidar_origin_to_beam_origin" (ReadsUnit .meters) (2767 / 100000) c.lidarOriginToBeamOrigin ∧
      FieldFrom es "lidar_origin_to_sensor_origin_z_offset" (ReadsUnit .meters) (3618 / 100000) c.lidarOriginToSensorOriginZOffset) ∧
    (∃ c, Cfg.PinholeCameraProjector.from (.map es) = some c ∧
      FieldFrom es "width" ReadsInt 0 c.width ∧
      FieldFrom es "height" ReadsInt 0 c.height ∧
      FieldFrom es "fx" ReadsFloat 0 c.fx ∧
      FieldFrom es "fy" ReadsFloat 0 c.fy ∧
      FieldFrom es "cx" ReadsFloat 0 c.cx ∧
      FieldFrom es "cy" ReadsFloat 0 c.cy) := by
  have nd := wf.nodup
  have wc := wf.children
  refine ⟨?_, ?_, ?_, ?_⟩
  · refine ⟨_, rfl, ?_, ?_, ?_⟩
    · config_field Cfg.CircularProjector.members Cfg.CircularProjector.minAngle using (reads_unit_iff .radians)
    · config_field Cfg.CircularProjector.members Cfg.CircularProjector.maxAngle using (reads_unit_iff .radians)
    · config_field Cfg.CircularProjector.members Cfg.CircularProjector.numCells using reads_int_iff
  · refine ⟨_, rfl, ?_, ?_⟩
    · config_field Cfg.SphericalProjector.members Cfg.SphericalProjector.elevation using reads_circular_iff
    · config_field Cfg.SphericalProjector.members Cfg.SphericalProjector.azimuth using reads_circular_iff
  · refine ⟨_, rfl, ?_, ?_, ?_, ?_⟩
    · config_field Cfg.OusterProjector.members Cfg.OusterProjector.elevation using reads_circular_iff
    · config_field Cfg.OusterProjector.members Cfg.OusterProjector.azimuth using reads_circular_iff
    · config_field Cfg.OusterProjector.members Cfg.OusterProjector.lidarOriginToBeamOrigin using (reads_unit_iff .meters)
    · config_field Cfg.OusterProjector.members Cfg.OusterProjector.lidarOriginToSensorOriginZOffset using (reads_unit_iff .meters)
  · refine ⟨_, rfl, ?_, ?_, ?_, ?_, ?_, ?_⟩
    · config_field Cfg.PinholeCameraProjector.members Cfg.PinholeCameraProjector.width using reads_int_iff
    · config_field Cfg.PinholeCameraProjector.members Cfg.PinholeCameraProjector.height using reads_int_iff
    · config_field Cfg.PinholeCameraProjector.members Cfg.PinholeCameraProjector.fx using reads_float_iff
    · config_field Cfg.PinholeCameraProjector.members Cfg.PinholeCameraProjector.fy using reads_float_iff
    · config_field Cfg.PinholeCameraProjector.members Cfg.PinholeCameraProjector.cx using reads_float_iff
    · config_field Cfg.PinholeCameraProjector.members Cfg.PinholeCameraProjector.cy using reads_float_iff

/-- The same for the configs of the ROS server and its inputs. -/
theorem C50_ros_configs (hw : Int) (es : List (String × Param.Value)) (wf : (Param.Value.map es).Wf) :
    (∃ c, Cfg.RosServer.from hw (.map es) = some c ∧
      FieldFrom es "world_frame" ReadsString "odom" c.worldFrame ∧
      FieldFrom es "num_threads" ReadsInt (max 1 hw) c.numThreads ∧
      FieldFrom es "logging_level" (ReadsType rosLoggingLevelNames) 1 c.loggingLevel ∧
      FieldFrom es "allow_reset_map_service" ReadsBool false c.allowResetMapService) ∧
    (∃ c, Cfg.RosInputBase.from (.map es) = some c ∧
      FieldFrom es "topic_name" ReadsString "scan" c.topicName ∧
      FieldFrom es "topic_queue_length" ReadsInt 10 c.topicQueueLength ∧
      FieldFrom es "measurement_integrator_names" ReadsStrings [] c.measurementIntegratorNames ∧
      FieldFrom es "processing_retry_period" (ReadsUnit .seconds) (1 / 20) c.processingRetryPeriod) ∧
    (∃ c, Cfg.DepthImageTopicInput.from (.map es) = some c ∧
      FieldFrom es "topic_name" ReadsString "" c.topicName ∧
      FieldFrom es "topic_queue_length" ReadsInt 10 c.topicQueueLength ∧
      FieldFrom es "measurement_integrator_names" ReadsStrings [] c.measurementIntegratorNames ∧
      FieldFrom es "processing_retry_period" (ReadsUnit .seconds) (1 / 20) c.processingRetryPeriod ∧
      FieldFrom es "max_wait_for_pose" (ReadsUnit .seconds) 1 c.maxWaitForPose ∧
      FieldFrom es "sensor_frame_id" ReadsString "" c.sensorFrameId ∧
      FieldFrom es "image_transport_hints" ReadsString "raw" c.imageTransportHints ∧
      FieldFrom es "depth_scale_factor" ReadsFloat 1 c.depthScaleFactor ∧
      FieldFrom es "time_offset" (ReadsUnit .seconds) 0 c.timeOffset ∧
      FieldFrom es "projected_pointcloud_topic_name" ReadsString "" c.projectedPointcloudTopicName) ∧
    (∃ c, Cfg.PointcloudTopicInput.from (.map es) = some c ∧
      FieldFrom es "topic_name" ReadsString "" c.topicName ∧
      FieldFrom es "topic_type" (ReadsType pointcloudTopicTypeNames) 0 c.topicType ∧
      FieldFrom es "topic_queue_length" ReadsInt 10 c.topicQueueLength ∧
      FieldFrom es "measurement_integrator_names" ReadsStrings [] c.measurementIntegratorNames ∧
      FieldFrom es "processing_retry_period" (ReadsUnit .seconds) (1 / 20) c.processingRetryPeriod ∧
      FieldFrom es "max_wait_for_pose" (ReadsUnit .seconds) 1 c.maxWaitForPose ∧
      FieldFrom es "sensor_frame_id" ReadsString "" c.sensorFrameId ∧
      FieldFrom es "time_offset" (ReadsUnit .seconds) 0 c.timeOffset ∧
      FieldFrom es "undistort_motion" ReadsBool false c.undistortMotion ∧
      FieldFrom es "num_undistortion_interpolation_intervals_per_cloud" ReadsInt 100 c.numUndistortionIntervals ∧
      FieldFrom es "projected_range_image_topic_name" ReadsString "" c.projectedRangeImageTopicName ∧
      FieldFrom es "undistorted_pointcloud_topic_name" ReadsString "" c.undistortedPointcloudTopicName) := by
  have nd := wf.nodup
  have wc := wf.children
  refine ⟨?_, ?_, ?_, ?_⟩
  · refine ⟨_, rfl, ?_, ?_, ?_, ?_⟩
    · config_field Cfg.RosServer.members Cfg.RosServer.worldFrame using reads_string_iff
    · config_field Cfg.RosServer.members Cfg.RosServer.numThreads using reads_int_iff
    · config_field Cfg.RosServer.members Cfg.RosServer.loggingLevel using (reads_type_iff rosLoggingLevelNames (by decide))
    · config_field Cfg.RosServer.members Cfg.RosServer.allowResetMapService using reads_bool_iff
  · refine ⟨_, rfl, ?_, ?_, ?_, ?_⟩
    · config_field Cfg.RosInputBase.members Cfg.RosInputBase.topicName using reads_string_iff
    · config_field Cfg.RosInputBase.members Cfg.RosInputBase.topicQueueLength using reads_int_iff
    · config_field Cfg.RosInputBase.members Cfg.RosInputBase.measurementIntegratorNames using reads_strings_iff
    · config_field Cfg.RosInputBase.members Cfg.RosInputBase.processingRetryPeriod using (reads_unit_iff .seconds)
  · refine ⟨_, rfl, ?_, ?_, ?_, ?_, ?_, ?_, ?_, ?_, ?_, ?_⟩
    · config_field Cfg.DepthImageTopicInput.members Cfg.DepthImageTopicInput.topicName using reads_string_iff
    · config_field Cfg.DepthImageTopicInput.members Cfg.DepthImageTopicInput.topicQueueLength using reads_int_iff
    · config_field Cfg.DepthImageTopicInput.members Cfg.DepthImageTopicInput.measurementIntegratorNames using reads_strings_iff
    · config_field Cfg.DepthImageTopicInput.members Cfg.DepthImageTopicInput.processingRetryPeriod using (reads_unit_iff .seconds)
    · config_field Cfg.DepthImageTopicInput.members Cfg.DepthImageTopicInput.maxWaitForPose using (reads_unit_iff .seconds)
    · config_field Cfg.DepthImageTopicInput.members Cfg.DepthImageTopicInput.sensorFrameId using reads_string_iff
    · config_field Cfg.DepthImageTopicInput.members Cfg.DepthImageTopicInput.imageTransportHints using reads_string_iff
    · config_field Cfg.DepthImageTopicInput.members Cfg.DepthImageTopicInput.depthScaleFactor using reads_float_iff
    · config_field Cfg.DepthImageTopicInput.members Cfg.DepthImageTopicInput.timeOffset using (reads_unit_iff .seconds)
    · config_field Cfg.DepthImageTopicInput.members Cfg.DepthImageTopicInput.projectedPointcloudTopicName using reads_string_iff
  · refine ⟨_, rfl, ?_, ?_, ?_, ?_, ?_, ?_, ?_, ?_, ?_, ?_, ?_, ?_⟩
    · config_field Cfg.PointcloudTopicInput.members Cfg.PointcloudTopicInput.topicName using reads_string_iff
    · config_field Cfg.PointcloudTopicInput.members Cfg.PointcloudTopicInput.topicType using (reads_type_iff pointcloudTopicTypeNames (by decide))
    · config_field Cfg.PointcloudTopicInput.members Cfg.PointcloudTopicInput.topicQueueLength using reads_int_iff
    · config_field Cfg.PointcloudTopicInput.members Cfg.PointcloudTopicInput.measurementIntegratorNames using reads_strings_iff
    · config_field Cfg.PointcloudTopicInput.members Cfg.PointcloudTopicInput.processingRetryPeriod using (reads_unit_iff .seconds)
    · config_field Cfg.PointcloudTopicInput.members Cfg.PointcloudTopicInput.maxWaitForPose using (reads_unit_iff .seconds)
    · config_field Cfg.PointcloudTopicInput.members Cfg.PointcloudTopicInput.sensorFrameId using reads_string_iff
    · config_field Cfg.PointcloudTopicInput.members Cfg.PointcloudTopicInput.timeOffset using (reads_unit_iff .seconds)
    · config_field Cfg.PointcloudTopicInput.members Cfg.PointcloudTopicInput.undistortMotion using reads_bool_iff
    · config_field Cfg.PointcloudTopicInput.members Cfg.PointcloudTopicInput.numUndistortionIntervals using reads_int_iff
    · config_field Cfg.PointcloudTopicInput.members Cfg.PointcloudTopicInput.projectedRangeImageTopicName using reads_string_iff
    · config_field Cfg.PointcloudTopicInput.members Cfg.PointcloudTopicInput.undistortedPointcloudTopicName using reads_string_iff

/-- Nothing that is not a map of parameters is a config. -/
theorem C50_not_a_map (hw : Int) (v : Param.Value) (h : ∀ es, v ≠ .map es) :
    Cfg.MapBase.from v = none ∧
    Cfg.VolumetricOctree.from v = none ∧
    Cfg.WaveletOctree.from v = none ∧
    Cfg.HashedWaveletOctree.from v = none ∧
    Cfg.HashedChunkedWaveletOctree.from v = none ∧
    Cfg.ThresholdMapOperation.from v = none ∧
    Cfg.PruneMapOperation.from v = none ∧
    Cfg.RayTracingIntegrator.from v = none ∧
    Cfg.ProjectiveIntegrator.from v = none ∧
    Cfg.ConstantRay.from v = none ∧
    Cfg.ContinuousRay.from v = none ∧
    Cfg.ContinuousBeam.from v = none ∧
    Cfg.CircularProjector.from v = none ∧
    Cfg.SphericalProjector.from v = none ∧
    Cfg.OusterProjector.from v = none ∧
    Cfg.PinholeCameraProjector.from v = none ∧
    Cfg.RosServer.from hw v = none ∧
    Cfg.RosInputBase.from v = none ∧
    Cfg.DepthImageTopicInput.from v = none ∧
    Cfg.PointcloudTopicInput.from v = none ∧
    Cfg.CropMapOperation.from v = none ∧
    Cfg.PublishMapOperation.from v = none ∧
    Cfg.PublishPointcloudOperation.from v = none := by
  cases v with
  | map es => exact absurd rfl (h es)
  | _ => exact ⟨rfl, rfl, rfl, rfl, rfl, rfl, rfl, rfl, rfl, rfl, rfl, rfl, rfl, rfl, rfl, rfl, rfl, rfl, rfl, rfl, rfl, rfl, rfl⟩

/-- Two configs compare equal exactly if all their settings are equal. -/
theorem C50_equality :
    (∀ a b, configEq Cfg.MapBase.members a b = true ↔ a = b) ∧
    (∀ a b, configEq Cfg.VolumetricOctree.members a b = true ↔ a = b) ∧
    (∀ a b, configEq Cfg.WaveletOctree.members a b = true ↔ a = b) ∧
    (∀ a b, configEq Cfg.HashedWaveletOctree.members a b = true ↔ a = b) ∧
    (∀ a b, configEq Cfg.HashedChunkedWaveletOctree.members a b = true ↔ a = b) ∧
    (∀ a b, configEq Cfg.ThresholdMapOperation.members a b = true ↔ a = b) ∧
    (∀ a b, configEq Cfg.PruneMapOperation.members a b = true ↔ a = b) ∧
    (∀ a b, configEq Cfg.RayTracingIntegrator.members a b = true ↔ a = b) ∧
    (∀ a b, configEq Cfg.ProjectiveIntegrator.members a b = true ↔ a = b) ∧
    (∀ a b, configEq Cfg.ConstantRay.members a b = true ↔ a = b) ∧
    (∀ a b, configEq Cfg.ContinuousRay.members a b = true ↔ a = b) ∧
    (∀ a b, configEq Cfg.ContinuousBeam.members a b = true ↔ a = b) ∧
    (∀ a b, configEq Cfg.CircularProjector.members a b = true ↔ a = b) ∧
    (∀ a b, configEq Cfg.SphericalProjector.members a b = true ↔ a = b) ∧
    (∀ a b, configEq Cfg.OusterProjector.members a b = true ↔ a = b) ∧
    (∀ a b, configEq Cfg.PinholeCameraProjector.members a b = true ↔ a = b) ∧
    (∀ a b, configEq Cfg.RosServer.members a b = true ↔ a = b) ∧
    (∀ a b, configEq Cfg.RosInputBase.members a b = true ↔ a = b) ∧
    (∀ a b, configEq Cfg.DepthImageTopicInput.members a b = true ↔ a = b) ∧
    (∀ a b, configEq Cfg.PointcloudTopicInput.members a b = true ↔ a = b) ∧
    (∀ a b, configEq Cfg.CropMapOperation.members a b = true ↔ a = b) ∧
    (∀ a b, configEq Cfg.PublishMapOperation.members a b = true ↔ a = b) ∧
    (∀ a b, configEq Cfg.PublishPointcloudOperation.members a b = true ↔ a = b) := by
  refine ⟨?_, ?_, ?_, ?_, ?_, ?_, ?_, ?_, ?_, ?_, ?_, ?_, ?_, ?_, ?_, ?_, ?_, ?_, ?_, ?_, ?_, ?_, ?_⟩
  all_goals
    intro a b
    cases a
    cases b
    simp [configEq, ConfigMember.of, Cfg.MapBase.members, Cfg.VolumetricOctree.members, Cfg.WaveletOctree.members,
      Cfg.HashedWaveletOctree.members, Cfg.HashedChunkedWaveletOctree.members,
      Cfg.ThresholdMapOperation.members, Cfg.PruneMapOperation.members, Cfg.RayTracingIntegrator.members,
      Cfg.ProjectiveIntegrator.members, Cfg.ConstantRay.members, Cfg.ContinuousRay.members,
      Cfg.ContinuousBeam.members, Cfg.CircularProjector.members, Cfg.SphericalProjector.members,
      Cfg.OusterProjector.members, Cfg.PinholeCameraProjector.members, Cfg.RosServer.members,
      Cfg.RosInputBase.members, Cfg.DepthImageTopicInput.members, Cfg.PointcloudTopicInput.members,
      Cfg.CropMapOperation.members, Cfg.PublishMapOperation.members, Cfg.PublishPointcloudOperation.members]

/-- A config with some of its settings given, one of them in centimetres, one mistyped and one unknown. -/
example : Cfg.HashedWaveletOctree.from (.map [("max_log_odds", .str "high"), ("min_cell_width", .map [("cm", .int 5)]),
    ("tree_height", .int 7), ("unknown", .bool true)]) = some ⟨1 / 20, -2, 4, 7, 5⟩ := by decide +kernel

example : (Param.Value.map [("max_log_odds", .str "high"), ("min_cell_width", .map [("cm", .int 5)]),
    ("tree_height", .int 7), ("unknown", .bool true)]).Wf := by
  refine .map _ (by decide) ?_
  simp only [List.forall_mem_cons, List.not_mem_nil, false_implies, implies_true, and_true]
  refine ⟨.str _, .map _ (by decide) ?_, .int _, .bool _⟩
  simp only [List.forall_mem_cons, List.not_mem_nil, false_implies, implies_true, and_true]
  exact .int _

end Wavemap
