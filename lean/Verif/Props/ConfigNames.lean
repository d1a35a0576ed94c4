import Verif.Props.Config
/-!
# C50, C52: the documented names of all types, and whether a setting is present
-/
namespace Wavemap
namespace ConfigNames

/-! ## Specification -/

/-- The names of the types as they are written in configuration files, menus and messages, in the order of their identifiers. -/
def documented : List (List String × List String) :=
  [(mapTypeNames, ["hashed_blocks", "octree", "wavelet_octree", "hashed_wavelet_octree", "hashed_chunked_wavelet_octree"]),
   (integratorTypeNames, ["ray_tracing_integrator", "fixed_resolution_integrator", "coarse_to_fine_integrator", "wavelet_integrator", "hashed_wavelet_integrator",
     "hashed_chunked_wavelet_integrator"]),
   (projectorTypeNames, ["spherical_projector", "ouster_projector", "pinhole_camera_projector"]),
   (measurementModelTypeNames, ["constant_ray", "continuous_ray", "continuous_beam"]),
   (beamSelectorTypeNames, ["nearest_neighbor", "all_neighbors"]),
   (mapOperationTypeNames, ["threshold_map", "prune_map"]),
   (siUnitNames, ["meters", "radians", "pixels", "seconds"]),
   (updateTypeNames, ["fully_unobserved", "fully_free", "free_or_unobserved", "possibly_occupied"]),
   (occupancyNames, ["free", "occupied", "unobserved", "observed", "any"]),
   (adjacencyNames, ["shared_vertex", "shared_edge", "shared_face", "shared_cube", "any_disjoint", "any", "none"]),
   (loggingLevelNames, ["info", "warning", "error", "fatal"]),
   (storageFormatNames, ["wavelet_octree", "hashed_wavelet_octree", "hashed_blocks"]),
   (rosInputTypeNames, ["pointcloud_topic", "depth_image_topic"]),
   (pointcloudTopicTypeNames, ["PointCloud2", "ouster", "livox"]),
   (mapRosOperationTypeNames, ["publish_map", "publish_pointcloud", "crop_map"]),
   (rosLoggingLevelNames, ["debug", "info", "warning", "error", "fatal"]),
   (voxelColorModeNames, ["Height", "Probability", "Flat"]),
   (sliceColorModeNames, ["Probability", "Raw"]),
   (cellSelectionModeNames, ["Surface", "Band"]),
   (sourceModeNames, ["Topic", "File"])]

end ConfigNames
open ConfigNames

/-- Every selector reads exactly its documented names, each as the identifier of its place in the list: a parameter, or its entry `"type"`, that is any other text, or not a text,
has no type. -/
theorem C52_documented_names (v : Param.Value) (wf : v.Wf) (i : Int) :
    ∀ e ∈ documented, TypeSelector.fromParams e.1 v = some i ↔ ReadsType e.2 v i := by
  have h : ∀ e ∈ documented, e.1 = e.2 ∧ e.2.Nodup := by decide
  intro e he
  obtain ⟨h1, h2⟩ := h e he
  rw [h1]
  exact C52_from_params e.2 h2 v wf i

/-- A setting is present exactly if the parameter is a map with an entry of its name, and then its value is that of the entry. -/
theorem C50_has_child (v : Param.Value) (wf : v.Wf) (key : String) :
    (v.hasChild key = true ↔ ∃ es child, v = .map es ∧ (key, child) ∈ es) ∧ ∀ child, v.getChild key = some child ↔ ∃ es, v = .map es ∧ (key, child) ∈ es := by
  cases wf with
  | map es nd h =>
    constructor
    · simp [Param.Value.hasChild, Param.Value.asMap]
    · intro child
      simp only [Param.Value.getChild, Param.Value.asMap, Param.Value.map.injEq, exists_eq_left']
      clear h
      induction es with
      | nil => simp
      | cons e es ih =>
        obtain ⟨k, c⟩ := e
        simp only [List.map_cons, List.nodup_cons] at nd
        by_cases hk : key = k
        · subst hk
          simp only [List.lookup_cons, beq_self_eq_true, Option.some.injEq, List.mem_cons, Prod.mk.injEq, true_and]
          constructor
          · rintro rfl; exact .inl rfl
          · rintro (rfl | h)
            · rfl
            · exact absurd (List.mem_map.2 ⟨_, h, rfl⟩) nd.1
        · simp only [List.lookup_cons, beq_false_of_ne hk, List.mem_cons, Prod.mk.injEq, hk, false_and, false_or]
          exact ih nd.2
  | _ => simp [Param.Value.hasChild, Param.Value.getChild, Param.Value.asMap]

example : TypeSelector.fromParams beamSelectorTypeNames (.str "all_neighbors") = some 1 ∧ TypeSelector.fromParams beamSelectorTypeNames (.str "nearest") = none := by decide

example : (Param.Value.map [("a", .int 1), ("b", .int 2)]).hasChild "b" = true ∧ (Param.Value.map [("a", .int 1), ("b", .int 2)]).hasChild "c" = false := by decide

end Wavemap
