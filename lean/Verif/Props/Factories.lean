import Verif.Lemmas.Factories
import Verif.Model.ChunkedWavelet
import Verif.Model.VolumetricOctree

/-!
# C63: the factories make what the parameters ask for

The specification of requests is in `Verif/Spec/Factories.lean`, that of parameters in `Verif/Spec/Config.lean`.
-/

namespace Wavemap

/-- Maps: for every parameter and default type, the map factory makes the map that is asked for if its config is usable,
aborts if it is not, and returns null if no known type is named (and there is no default) or there are no settings. -/
theorem C63_map (params : Param.Value) (wf : params.Wf) (dflt : Option Int) :
    FactoryDoes (MapRequested params dflt) MapUsable (MapFactory.create params dflt) := by
  have hc := fun k name => chooses_at mapTypeNames (by decide) (· = params) (some params)
    (fun w => by simp [eq_comm]) (by rintro w rfl; exact wf) dflt k name
  have h0 := hc 0 "hashed_blocks" rfl
  have h1 := hc 1 "octree" rfl
  have h2 := hc 2 "wavelet_octree" rfl
  have h3 := hc 3 "hashed_wavelet_octree" rfl
  have h4 := hc 4 "hashed_chunked_wavelet_octree" rfl
  have he : MapFactory.create params dflt =
      match selectedType ((some params).bind (TypeSelector.fromParams mapTypeNames)) dflt with
      | some t => MapFactory.createType t params
      | none => .null := by
    unfold MapFactory.create selectedType
    rw [Option.bind_some]
    cases TypeSelector.fromParams mapTypeNames params with
    | some t => rfl
    | none => cases dflt <;> rfl
  rw [he]
  generalize selectedType ((some params).bind (TypeSelector.fromParams mapTypeNames)) dflt = s at h0 h1 h2 h3 h4
  cases s with
  | none => exact factoryDoes_null fun m => by cases m <;> simp [MapRequested, h0, h1, h2, h3, h4]
  | some t =>
    dsimp only
    unfold MapFactory.createType
    split
    · subst t
      exact factoryDoes_from _ _ _ (fun m => by cases m <;> simp [MapRequested, h0, h1, h2, h3, h4])
        (fun c => by simp [MapUsable, Cfg.MapBase.isValid])
    split
    · subst t
      refine factoryDoes_from _ _ _ (fun m => by cases m <;> simp [MapRequested, h0, h1, h2, h3, h4]) (fun c => ?_)
      simp only [MapUsable, Cfg.VolumetricOctree.constructible, Cfg.VolumetricOctree.isValid,
        Bool.and_eq_true, decide_eq_true_eq, and_assoc]
      rfl
    split
    · subst t
      refine factoryDoes_from _ _ _ (fun m => by cases m <;> simp [MapRequested, h0, h1, h2, h3, h4]) (fun c => ?_)
      simp only [MapUsable, Cfg.WaveletOctree.constructible, Cfg.WaveletOctree.isValid,
        Bool.and_eq_true, decide_eq_true_eq, and_assoc]
      have : c.treeHeight - 1 ≤ maxNdtreeHeight ↔ c.treeHeight ≤ 21 := by
        unfold maxNdtreeHeight
        omega
      rw [this]
    split
    · subst t
      exact factoryDoes_from _ _ _ (fun m => by cases m <;> simp [MapRequested, h0, h1, h2, h3, h4])
        (fun c => by simp [MapUsable, Cfg.HashedWaveletOctree.isValid])
    split
    · subst t
      exact factoryDoes_from _ _ _ (fun m => by cases m <;> simp [MapRequested, h0, h1, h2, h3, h4])
        (fun c => by simp [MapUsable, Cfg.HashedChunkedWaveletOctree.isValid])
    · exact factoryDoes_null fun m => by cases m <;> simp [MapRequested, h0, h1, h2, h3, h4, *]

example : ∃ m, MapRequested (.map [("min_cell_width", .map [("cm", .int 20)]), ("type", .str "octree")]) none m ∧
    MapUsable m :=
  ⟨.octree ⟨1 / 5, -2, 4, 14⟩, ⟨Or.inl ⟨by decide, _, rfl, Or.inr ⟨_, rfl, by simp⟩⟩, by decide +kernel⟩,
    by decide +kernel, by decide +kernel, by decide, by decide⟩

theorem circular_usable_iff (c : Cfg.CircularProjector) : CircularUsable c ↔ c.isValid = true := by
  simp only [CircularUsable, Cfg.CircularProjector.isValid, decide_eq_true_eq]
  have hpi : 0 < kPiQ := by decide +kernel
  constructor
  · rintro ⟨h1, h2, h3, h4⟩
    exact ⟨h1, (le_of_lt h2).trans h3, h1.trans (le_of_lt h2), h3, h2, by omega⟩
  · rintro ⟨h1, -, -, h3, h2, h4⟩
    exact ⟨h1, h2, h3, by omega⟩

/-- Projection models, asked for in the entry `"projection_model"`. -/
theorem C63_projector (params : Param.Value) (wf : params.Wf) (dflt : Option Int) :
    FactoryDoes (ProjectorRequested params dflt) ProjectorUsable (ProjectorFactory.create params dflt) := by
  have hc := fun k name => chooses_at projectorTypeNames (by decide) (params.Entry "projection_model")
    (params.getChild "projection_model") (fun w => entry_iff params wf _ w) (fun w h => entry_wf wf h) dflt k name
  have h0 := hc 0 "spherical_projector" rfl
  have h1 := hc 1 "ouster_projector" rfl
  have h2 := hc 2 "pinhole_camera_projector" rfl
  have f0 : ∀ c, Cfg.SphericalProjector.fromSub params "projection_model" = some c ↔
      ∃ w, params.Entry "projection_model" w ∧ Cfg.SphericalProjector.from w = some c :=
    fun c => configFromSub_iff _ _ params wf _ c
  have f1 : ∀ c, Cfg.OusterProjector.fromSub params "projection_model" = some c ↔
      ∃ w, params.Entry "projection_model" w ∧ Cfg.OusterProjector.from w = some c :=
    fun c => configFromSub_iff _ _ params wf _ c
  have f2 : ∀ c, Cfg.PinholeCameraProjector.fromSub params "projection_model" = some c ↔
      ∃ w, params.Entry "projection_model" w ∧ Cfg.PinholeCameraProjector.from w = some c :=
    fun c => configFromSub_iff _ _ params wf _ c
  have he : ProjectorFactory.create params dflt =
      match selectedType ((params.getChild "projection_model").bind (TypeSelector.fromParams projectorTypeNames)) dflt with
      | some t => ProjectorFactory.createType t params
      | none => .null := by
    unfold ProjectorFactory.create selectedType
    rw [fromSub_bind]
    cases (params.getChild "projection_model").bind (TypeSelector.fromParams projectorTypeNames) with
    | some t => rfl
    | none => cases dflt <;> rfl
  rw [he]
  generalize selectedType ((params.getChild "projection_model").bind (TypeSelector.fromParams projectorTypeNames)) dflt = s
    at h0 h1 h2
  cases s with
  | none => exact factoryDoes_null fun m => by cases m <;> simp [ProjectorRequested, h0, h1, h2]
  | some t =>
    dsimp only
    unfold ProjectorFactory.createType
    split
    · subst t
      refine factoryDoes_from _ _ _ (fun m => ?_) (fun c => ?_)
      · cases m <;> simp [ProjectorRequested, h0, h1, h2, f0, Cfg.SphericalProjector.from]
      · simp only [ProjectorUsable, Cfg.SphericalProjector.isValid, circular_usable_iff, decide_eq_true_eq]
    split
    · subst t
      refine factoryDoes_from _ _ _ (fun m => ?_) (fun c => ?_)
      · cases m <;> simp [ProjectorRequested, h0, h1, h2, f1, Cfg.OusterProjector.from]
      · simp only [ProjectorUsable, Cfg.OusterProjector.isValid, circular_usable_iff, decide_eq_true_eq]
    split
    · subst t
      refine factoryDoes_from _ _ _ (fun m => ?_) (fun c => ?_)
      · cases m <;> simp [ProjectorRequested, h0, h1, h2, f2, Cfg.PinholeCameraProjector.from]
      · simp only [ProjectorUsable, Cfg.PinholeCameraProjector.isValid, decide_eq_true_eq]
    · exact factoryDoes_null fun m => by cases m <;> simp [ProjectorRequested, h0, h1, h2, *]

/-- Measurement models, asked for in the entry `"measurement_model"`. The model type `"constant_ray"` cannot be asked for
here (see `C63_constant_ray_fails`). -/
theorem C63_measurement_model_partial (params : Param.Value) (wf : params.Wf) (dflt : Option Int) :
    FactoryDoes (MeasurementModelRequested params dflt) MeasurementModelUsable
      (MeasurementModelFactory.create params dflt) := by
  have hc := fun k name => chooses_at measurementModelTypeNames (by decide) (params.Entry "measurement_model")
    (params.getChild "measurement_model") (fun w => entry_iff params wf _ w) (fun w h => entry_wf wf h) dflt k name
  have h1 := hc 1 "continuous_ray" rfl
  have h2 := hc 2 "continuous_beam" rfl
  have f1 : ∀ c, Cfg.ContinuousRay.fromSub params "measurement_model" = some c ↔
      ∃ w, params.Entry "measurement_model" w ∧ Cfg.ContinuousRay.from w = some c :=
    fun c => configFromSub_iff _ _ params wf _ c
  have f2 : ∀ c, Cfg.ContinuousBeam.fromSub params "measurement_model" = some c ↔
      ∃ w, params.Entry "measurement_model" w ∧ Cfg.ContinuousBeam.from w = some c :=
    fun c => configFromSub_iff _ _ params wf _ c
  have he : MeasurementModelFactory.create params dflt =
      match selectedType
        ((params.getChild "measurement_model").bind (TypeSelector.fromParams measurementModelTypeNames)) dflt with
      | some t => MeasurementModelFactory.createType t params
      | none => .null := by
    unfold MeasurementModelFactory.create selectedType
    rw [fromSub_bind]
    cases (params.getChild "measurement_model").bind (TypeSelector.fromParams measurementModelTypeNames) with
    | some t => rfl
    | none => cases dflt <;> rfl
  rw [he]
  generalize selectedType
    ((params.getChild "measurement_model").bind (TypeSelector.fromParams measurementModelTypeNames)) dflt = s at h1 h2
  cases s with
  | none => exact factoryDoes_null fun m => by cases m <;> simp [MeasurementModelRequested, h1, h2]
  | some t =>
    dsimp only
    unfold MeasurementModelFactory.createType
    split
    · subst t
      refine factoryDoes_from _ _ _ (fun m => ?_) (fun c => ?_)
      · cases m <;> simp [MeasurementModelRequested, h1, h2, f1, Cfg.ContinuousRay.from]
      · simp only [MeasurementModelUsable, Cfg.ContinuousRay.isValid, decide_eq_true_eq]
    split
    · subst t
      refine factoryDoes_from _ _ _ (fun m => ?_) (fun c => ?_)
      · cases m <;> simp [MeasurementModelRequested, h1, h2, f2, Cfg.ContinuousBeam.from]
      · simp only [MeasurementModelUsable, Cfg.ContinuousBeam.isValid, decide_eq_true_eq]
    · exact factoryDoes_null fun m => by cases m <;> simp [MeasurementModelRequested, h1, h2, *]

/-- Violation: the type `"constant_ray"` is a known measurement model with a valid default config, but asking for it
gives a null pointer, whatever the settings. -/
theorem C63_constant_ray_fails (es : List (String × Param.Value))
    (wf : (Param.Value.map [("measurement_model", .map (("type", .str "constant_ray") :: es))]).Wf) :
    "constant_ray" ∈ measurementModelTypeNames ∧ ({} : Cfg.ConstantRay).isValid = true ∧
      MeasurementModelFactory.create (.map [("measurement_model", .map (("type", .str "constant_ray") :: es))]) none =
        .null := by
  refine ⟨by decide, by decide, ?_⟩
  rfl

/-- Integrators, asked for in the entry `"integration_method"`: an integrator is made exactly if it is the one asked for,
all its parts are usable and it works on the kind of map given. -/
theorem C63_integrator (params : Param.Value) (wf : params.Wf) (map : MapObject) (dflt : Option Int)
    (i : IntegratorObject) :
    IntegratorFactory.create params (some map) dflt = .made i ↔ IntegratorGood params map dflt i := by
  have hc := fun k name => chooses_at integratorTypeNames (by decide) (params.Entry "integration_method")
    (params.getChild "integration_method") (fun w => entry_iff params wf _ w) (fun w h => entry_wf wf h) dflt k name
  have hci := chooses_iff integratorTypeNames (by decide) (params.Entry "integration_method")
    (params.getChild "integration_method") (fun w => entry_iff params wf _ w) (fun w h => entry_wf wf h) dflt
  have h0 := hc 0 "ray_tracing_integrator" rfl
  have h1 := hc 1 "fixed_resolution_integrator" rfl
  have h2 := hc 2 "coarse_to_fine_integrator" rfl
  have h3 := hc 3 "wavelet_integrator" rfl
  have h4 := hc 4 "hashed_wavelet_integrator" rfl
  have h5 := hc 5 "hashed_chunked_wavelet_integrator" rfl
  have f0 : ∀ c, Cfg.RayTracingIntegrator.fromSub params "integration_method" = some c ↔
      ∃ w, params.Entry "integration_method" w ∧ Cfg.RayTracingIntegrator.from w = some c :=
    fun c => configFromSub_iff _ _ params wf _ c
  have f1 : ∀ c, Cfg.ProjectiveIntegrator.fromSub params "integration_method" = some c ↔
      ∃ w, params.Entry "integration_method" w ∧ Cfg.ProjectiveIntegrator.from w = some c :=
    fun c => configFromSub_iff _ _ params wf _ c
  obtain ⟨hp, -, -⟩ := C63_projector params wf none
  obtain ⟨hm, -, -⟩ := C63_measurement_model_partial params wf none
  have hacc : ∀ (k : Nat) (name : String), integratorTypeNames[k]? = some name →
      (Integrates name map ↔ k ≠ 0 ∧ integratorAcceptsMap k (some map) = true) := by
    intro k name hk
    match k with
    | 0 | 1 | 2 | 3 | 4 | 5 => cases hk; cases map <;> simp [Integrates, integratorAcceptsMap]
    | k + 6 => simp [integratorTypeNames] at hk
  have he : IntegratorFactory.create params (some map) dflt =
      match selectedType
        ((params.getChild "integration_method").bind (TypeSelector.fromParams integratorTypeNames)) dflt with
      | some t => IntegratorFactory.createType t params (some map)
      | none => .null := by
    unfold IntegratorFactory.create selectedType
    rw [fromSub_bind]
    cases (params.getChild "integration_method").bind (TypeSelector.fromParams integratorTypeNames) with
    | some t => rfl
    | none => cases dflt <;> rfl
  rw [he]
  generalize hs : selectedType
    ((params.getChild "integration_method").bind (TypeSelector.fromParams integratorTypeNames)) dflt = s
    at h0 h1 h2 h3 h4 h5 hci
  cases s with
  | none => cases i <;> simp [IntegratorGood, h0, hci]
  | some t =>
    dsimp only
    unfold IntegratorFactory.createType
    by_cases ht : t = 0
    · rw [if_pos ht]
      cases i with
      | rayTracing c =>
        simp only [IntegratorGood, h0, ← f0, ht, Nat.cast_zero, true_and]
        cases hf : Cfg.RayTracingIntegrator.fromSub params "integration_method" with
        | none => simp
        | some c' =>
          simp only [Cfg.RayTracingIntegrator.isValid, Option.isSome_some, Bool.and_true, decide_eq_true_eq]
          split
          · rename_i hv
            simp only [Made.made.injEq, IntegratorObject.rayTracing.injEq, Option.some.injEq]
            constructor
            · rintro rfl
              exact ⟨rfl, hv.1, hv.2.2⟩
            · exact fun h => h.1
          · rename_i hv
            simp only [reduceCtorEq, Option.some.injEq, false_iff, not_and]
            rintro rfl h1 h2
            exact hv ⟨h1, h1.trans h2, h2⟩
      | projective type c p m =>
        constructor
        · intro h
          split at h
          · split at h <;> simp at h
          · cases h
        · rintro ⟨⟨k, name, rfl, hk, hch, hint⟩, -⟩
          have := (hc k name hk).1 hch
          rw [hs, ht] at this
          have hk0 : k = 0 := by
            have := Option.some.inj this
            omega
          exact absurd hk0 ((hacc k name hk).1 hint).1
    · rw [if_neg ht]
      cases i with
      | rayTracing c =>
        simp only [IntegratorGood, h0, Option.some.injEq, Nat.cast_zero, ht, false_and, iff_false]
        intro h
        repeat' split at h
        all_goals simp at h
      | projective type c p m =>
        simp only [IntegratorGood, ← f1, ← hp, ← hm]
        have hsel : (∃ (k : Nat) (name : String), type = (k : Int) ∧ integratorTypeNames[k]? = some name ∧
            Chooses integratorTypeNames (params.Entry "integration_method") dflt name ∧ Integrates name map) ↔
            type = t ∧ integratorAcceptsMap t (some map) = true := by
          constructor
          · rintro ⟨k, name, rfl, hk, hch, hint⟩
            have h := (hc k name hk).1 hch
            rw [hs] at h
            cases h
            exact ⟨rfl, ((hacc k name hk).1 hint).2⟩
          · rintro ⟨rfl, hac⟩
            have hrange : type = 1 ∨ type = 2 ∨ type = 3 ∨ type = 4 ∨ type = 5 := by
              cases map <;> simp [integratorAcceptsMap] at hac <;> omega
            rcases hrange with rfl | rfl | rfl | rfl | rfl
            · exact ⟨1, _, rfl, rfl, h1.2 rfl, (hacc 1 _ rfl).2 ⟨by decide, hac⟩⟩
            · exact ⟨2, _, rfl, rfl, h2.2 rfl, (hacc 2 _ rfl).2 ⟨by decide, hac⟩⟩
            · exact ⟨3, _, rfl, rfl, h3.2 rfl, (hacc 3 _ rfl).2 ⟨by decide, hac⟩⟩
            · exact ⟨4, _, rfl, rfl, h4.2 rfl, (hacc 4 _ rfl).2 ⟨by decide, hac⟩⟩
            · exact ⟨5, _, rfl, rfl, h5.2 rfl, (hacc 5 _ rfl).2 ⟨by decide, hac⟩⟩
        rw [hsel]
        cases Cfg.ProjectiveIntegrator.fromSub params "integration_method" with
        | none => simp
        | some c' =>
          cases ProjectorFactory.create params none with
          | null => simp
          | abort => simp
          | made p' =>
            cases MeasurementModelFactory.create params none with
            | null => simp
            | abort => simp
            | made m' =>
              by_cases hac : integratorAcceptsMap t (some map) = true
              · simp only [hac, if_true, Cfg.ProjectiveIntegrator.isValid, Option.isSome_some, Bool.and_true,
                  decide_eq_true_eq, Option.some.injEq, Made.made.injEq, and_true]
                constructor
                · intro h
                  split at h
                  · rename_i hv
                    cases h
                    exact ⟨rfl, rfl, ⟨hv.1, hv.2.2⟩, rfl, rfl⟩
                  · cases h
                · rintro ⟨rfl, rfl, ⟨v1, v2, v3, v4⟩, rfl, rfl⟩
                  rw [if_pos ⟨v1, v1.trans v2, v2, v3, v4⟩]
              · simp [hac]

/-- An integrator factory does not abort if the settings it finds are usable. -/
theorem C63_integrator_no_abort (params : Param.Value) (wf : params.Wf) (map : MapObject) (dflt : Option Int)
    (hr : ∀ w c, params.Entry "integration_method" w → Cfg.RayTracingIntegrator.from w = some c →
      0 < c.minRange ∧ c.minRange < c.maxRange)
    (hi : ∀ w c, params.Entry "integration_method" w → Cfg.ProjectiveIntegrator.from w = some c →
      0 < c.minRange ∧ c.minRange < c.maxRange ∧ 0 ≤ c.maxUpdateResolution ∧ 0 < c.terminationUpdateError)
    (hp : ∀ p, ProjectorRequested params none p → ProjectorUsable p)
    (hm : ∀ m, MeasurementModelRequested params none m → MeasurementModelUsable m) :
    IntegratorFactory.create params (some map) dflt ≠ .abort := by
  have hp' : ProjectorFactory.create params none ≠ .abort := fun h => by
    obtain ⟨p, h1, h2⟩ := (C63_projector params wf none).2.1.1 h
    exact h2 (hp p h1)
  have hm' : MeasurementModelFactory.create params none ≠ .abort := fun h => by
    obtain ⟨p, h1, h2⟩ := (C63_measurement_model_partial params wf none).2.1.1 h
    exact h2 (hm p h1)
  have ht : ∀ t, IntegratorFactory.createType t params (some map) ≠ .abort := by
    intro t h
    unfold IntegratorFactory.createType at h
    split at h
    · split at h
      · rename_i c hc
        obtain ⟨w, hw, he⟩ := (configFromSub_iff _ _ params wf _ c).1 hc
        obtain ⟨v1, v2⟩ := hr w c hw he
        rw [if_pos (by simp [Cfg.RayTracingIntegrator.isValid, v1, v2, v1.trans v2])] at h
        cases h
      · cases h
    · split at h
      · cases h
      · rename_i c hc
        obtain ⟨w, hw, he⟩ := (configFromSub_iff _ _ params wf _ c).1 hc
        obtain ⟨v1, v2, v3, v4⟩ := hi w c hw he
        split at h
        · rename_i hx; exact hp' hx
        · cases h
        · split at h
          · rename_i hx; exact hm' hx
          · cases h
          · split at h
            · rw [if_pos (by simp [Cfg.ProjectiveIntegrator.isValid, v1, v2, v1.trans v2, v3, v4])] at h
              cases h
            · cases h
  unfold IntegratorFactory.create
  split
  · exact ht _
  · split
    · exact ht _
    · simp

/-- A complete request: a hashed wavelet integrator for a depth camera. -/
def exampleIntegratorParams : Param.Value :=
  .map [("integration_method", .map [("type", .str "hashed_wavelet_integrator"),
      ("min_range", .map [("m", .float 1)]), ("max_range", .map [("m", .int 5)])]),
    ("measurement_model", .map [("range_sigma", .map [("cm", .int 1)]), ("type", .str "continuous_ray")]),
    ("projection_model", .map [("cx", .int 2), ("fx", .int 3), ("fy", .float 3), ("height", .int 4), ("type", .str "pinhole_camera_projector"),
      ("width", .int 4)])]

example : ∃ i, IntegratorFactory.create exampleIntegratorParams (some (.hashedWaveletOctree {})) none = .made i :=
  ⟨.projective 4 ⟨1, 5, 0, 1 / 10⟩ (.pinhole ⟨4, 4, 3, 3, 2, 0⟩) (.continuousRay ⟨1 / 100, 1 / 2, 1 / 2, 0⟩),
    by decide +kernel⟩

example : IntegratorFactory.create exampleIntegratorParams (some (.hashedBlocks {})) none = .null := by decide +kernel

/-- Without a map no integrator is made, whatever the parameters. -/
theorem C63_integrator_null_map (params : Param.Value) (dflt : Option Int) (i : IntegratorObject) :
    IntegratorFactory.create params none dflt ≠ .made i := by
  have ht : ∀ t, IntegratorFactory.createType t params none ≠ .made i := by
    intro t h
    unfold IntegratorFactory.createType at h
    simp only [Option.isSome_none, Bool.and_false, Bool.false_eq_true, if_false] at h
    split at h
    · split at h <;> cases h
    · split at h
      · cases h
      · split at h
        · cases h
        · cases h
        · split at h
          · cases h
          · cases h
          · split at h <;> cases h
  unfold IntegratorFactory.create
  split
  · exact ht _
  · split
    · exact ht _
    · intro h; cases h

/-- The parameters for which an integrator is made if there is a map. -/
example : IntegratorFactory.create exampleIntegratorParams none none = .null := by decide +kernel

/-- Violation: a default integrator type, which the factory accepts, has no effect if the parameters do not have the
entry `"integration_method"`: the settings are only looked for there, and the default settings are not used. -/
theorem C63_default_integrator_fails (es : List (String × Param.Value)) (wf : (Param.Value.map es).Wf)
    (h : ¬∃ w, (Param.Value.map es).Entry "integration_method" w) (map : Option MapObject) (t : Int) :
    IntegratorFactory.create (.map es) map (some t) = .null := by
  have hg : (Param.Value.map es).getChild "integration_method" = none := by
    cases hc : (Param.Value.map es).getChild "integration_method" with
    | none => rfl
    | some w => exact absurd ⟨w, (entry_iff _ wf _ w).2 hc⟩ h
  have h1 : Cfg.RayTracingIntegrator.fromSub (.map es) "integration_method" = none := by
    unfold Cfg.RayTracingIntegrator.fromSub configFromSub
    rw [hg]
  have h2 : Cfg.ProjectiveIntegrator.fromSub (.map es) "integration_method" = none := by
    unfold Cfg.ProjectiveIntegrator.fromSub configFromSub
    rw [hg]
  unfold IntegratorFactory.create
  rw [fromSub_bind, hg]
  simp [IntegratorFactory.createType, h1, h2]

/-- Violation: a map type can be named by a bare string, without settings; the type is understood but no map is made. -/
theorem C63_type_name_only_fails :
    ∀ name ∈ mapTypeNames, (∃ t, TypeSelector.fromParams mapTypeNames (.str name) = some t) ∧
      ∀ dflt, MapFactory.create (.str name) dflt = .null := by
  intro name hn
  simp only [mapTypeNames, List.mem_cons, List.not_mem_nil, or_false] at hn
  rcases hn with rfl | rfl | rfl | rfl | rfl
  · exact ⟨⟨0, by decide⟩, fun _ => rfl⟩
  · exact ⟨⟨1, by decide⟩, fun _ => rfl⟩
  · exact ⟨⟨2, by decide⟩, fun _ => rfl⟩
  · exact ⟨⟨3, by decide⟩, fun _ => rfl⟩
  · exact ⟨⟨4, by decide⟩, fun _ => rfl⟩

/-- Violation: the hashed wavelet map accepts any tree height, although its blocks cannot be made if it exceeds 21 (their
octree aborts); the other maps check it. -/
theorem C63_hashed_tree_height_fails (h : Int) (hh : 21 < h) :
    MapFactory.create (.map [("tree_height", .int h), ("type", .str "hashed_wavelet_octree")]) none =
      .made (.hashedWaveletOctree { treeHeight := h }) ∧
    MapFactory.create (.map [("tree_height", .int h), ("type", .str "wavelet_octree")]) none = .abort ∧
    MapFactory.create (.map [("tree_height", .int h), ("type", .str "octree")]) none = .abort ∧
    MapFactory.create (.map [("tree_height", .int h), ("type", .str "hashed_chunked_wavelet_octree")]) none =
      .abort := by
  refine ⟨?_, ?_, ?_, ?_⟩
  · change (fromConfig (·.isValid) (some ({ treeHeight := h } : Cfg.HashedWaveletOctree))).map
      MapObject.hashedWaveletOctree = _
    have : ({ treeHeight := h } : Cfg.HashedWaveletOctree).isValid = true := by
      have : 0 < h := by omega
      have h2 : (-2 : ℚ) < 4 := by decide +kernel
      simp [Cfg.HashedWaveletOctree.isValid, this, h2]
    exact fromConfig_valid _ _ _ this
  · change (fromConfig (·.constructible) (some ({ treeHeight := h } : Cfg.WaveletOctree))).map
      MapObject.waveletOctree = _
    have : ({ treeHeight := h } : Cfg.WaveletOctree).constructible = false := by
      have : ¬(h - 1 ≤ maxNdtreeHeight) := by unfold maxNdtreeHeight; omega
      simp [Cfg.WaveletOctree.constructible, this]
    exact fromConfig_invalid _ _ _ this
  · change (fromConfig (·.constructible) (some ({ treeHeight := h } : Cfg.VolumetricOctree))).map
      MapObject.octree = _
    have : ({ treeHeight := h } : Cfg.VolumetricOctree).constructible = false := by
      have : ¬(h ≤ maxNdtreeHeight) := by unfold maxNdtreeHeight; omega
      simp [Cfg.VolumetricOctree.constructible, this]
    exact fromConfig_invalid _ _ _ this
  · change (fromConfig (·.isValid) (some ({ treeHeight := h } : Cfg.HashedChunkedWaveletOctree))).map
      MapObject.hashedChunkedWaveletOctree = _
    have : ({ treeHeight := h } : Cfg.HashedChunkedWaveletOctree).isValid = false := by
      simp [Cfg.HashedChunkedWaveletOctree.isValid]
      omega
    exact fromConfig_invalid _ _ _ this

/-! ## Operations and inputs -/

theorem named_iff (names : List String) (nd : names.Nodup) (params : Param.Value) (wf : params.Wf) (k : Nat)
    (name : String) (hk : names[k]? = some name) :
    NamesType params name ↔ TypeSelector.fromParams names params = some (k : Int) := by
  rw [← reads_type_iff names nd params wf]
  constructor
  · exact fun h => ⟨k, name, h, hk, rfl⟩
  · rintro ⟨k', s, h, hk', he⟩
    have : k = k' := by omega
    subst this
    rw [hk] at hk'
    cases hk'
    exact h

/-- The general map operations (thresholding and pruning), for a pipeline with a map. -/
theorem C63_operation (params : Param.Value) (wf : params.Wf) (map : MapObject) :
    FactoryDoes (fun o => OperationRequested params o ∧ o.IsGeneral) OperationUsable
      (MapOperationFactory.create params (some map)) := by
  have h0 := named_iff mapOperationTypeNames (by decide) params wf 0 "threshold_map" rfl
  have h1 := named_iff mapOperationTypeNames (by decide) params wf 1 "prune_map" rfl
  unfold MapOperationFactory.create
  generalize hs : TypeSelector.fromParams mapOperationTypeNames params = s at h0 h1
  cases s with
  | none => exact factoryDoes_null fun m => by cases m <;> simp [OperationRequested, OperationObject.IsGeneral, h0, h1]
  | some t =>
    dsimp only
    unfold MapOperationFactory.createType
    have hv : TypeSelector.isValid mapOperationTypeNames t = true := by
      obtain ⟨k, s, -, hk, rfl⟩ := (reads_type_iff _ (by decide) params wf t).2 hs
      obtain ⟨hlt, -⟩ := List.getElem?_eq_some_iff.1 hk
      simp [TypeSelector.isValid, hlt]
    rw [if_neg (by simp [hv])]
    split
    · subst t
      rw [operationFrom_eq]
      exact factoryDoes_from _ _ _
        (fun m => by cases m <;> simp [OperationRequested, OperationObject.IsGeneral, h0, h1])
        (fun c => by simp [OperationUsable, Cfg.ThresholdMapOperation.isValid])
    split
    · subst t
      rw [operationFrom_eq]
      exact factoryDoes_from _ _ _
        (fun m => by cases m <;> simp [OperationRequested, OperationObject.IsGeneral, h0, h1])
        (fun c => by simp [OperationUsable, Cfg.PruneMapOperation.isValid])
    · exact factoryDoes_null fun m => by cases m <;> simp [OperationRequested, OperationObject.IsGeneral, h0, h1, *]

/-- All map operations, as the ROS server creates them. -/
theorem C63_ros_operation (params : Param.Value) (wf : params.Wf) (map : MapObject) :
    FactoryDoes (OperationRequested params) OperationUsable (RosServer.addOperation params (some map)) := by
  have hn := names_type_iff params wf
  unfold RosServer.addOperation
  cases hs : Param.getTypeStr params with
  | none => exact factoryDoes_null fun m => by cases m <;> simp [OperationRequested, hn, hs]
  | some name =>
    dsimp only
    have hR : ∀ s, NamesType params s ↔ name = s := fun s => by rw [hn, hs]; simp
    by_cases e0 : name = "publish_map"
    · subst e0
      exact factoryDoes_from (R := OperationRequested params) (U := OperationUsable)
        (fun c => (some map).isSome && c.isValid) (Cfg.PublishMapOperation.from params) OperationObject.publishMap
        (fun m => by cases m <;> simp [OperationRequested, hR])
        (fun c => by simp [OperationUsable, Cfg.PublishMapOperation.isValid])
    by_cases e1 : name = "publish_pointcloud"
    · subst e1
      exact factoryDoes_from (R := OperationRequested params) (U := OperationUsable)
        (fun c => (some map).isSome && c.isValid) (Cfg.PublishPointcloudOperation.from params) OperationObject.publishPointcloud
        (fun m => by cases m <;> simp [OperationRequested, hR])
        (fun c => by simp [OperationUsable, Cfg.PublishPointcloudOperation.isValid])
    by_cases e2 : name = "crop_map"
    · subst e2
      exact factoryDoes_from (R := OperationRequested params) (U := OperationUsable)
        (fun c => (some map).isSome && c.isValid) (Cfg.CropMapOperation.from params) OperationObject.crop
        (fun m => by cases m <;> simp [OperationRequested, hR])
        (fun c => by simp [OperationUsable, Cfg.CropMapOperation.isValid])
    by_cases e3 : name = "threshold_map"
    · subst e3
      exact factoryDoes_from (R := OperationRequested params) (U := OperationUsable)
        (fun c => (some map).isSome && c.isValid) (Cfg.ThresholdMapOperation.from params) OperationObject.threshold
        (fun m => by cases m <;> simp [OperationRequested, hR])
        (fun c => by simp [OperationUsable, Cfg.ThresholdMapOperation.isValid])
    by_cases e4 : name = "prune_map"
    · subst e4
      exact factoryDoes_from (R := OperationRequested params) (U := OperationUsable)
        (fun c => (some map).isSome && c.isValid) (Cfg.PruneMapOperation.from params) OperationObject.prune
        (fun m => by cases m <;> simp [OperationRequested, hR])
        (fun c => by simp [OperationUsable, Cfg.PruneMapOperation.isValid])
    have hnone : ∀ names : List String, name ∉ names →
        TypeSelector.isValid names (TypeSelector.toTypeId names name) = false := by
      intro names hno
      rcases toTypeIdFrom_cases name names 0 with ⟨-, he⟩ | ⟨k', hk', -, -⟩
      · unfold TypeSelector.toTypeId
        rw [he]
        simp [TypeSelector.isValid, TypeSelector.invalidTypeId]
      · exact absurd (List.mem_of_getElem? hk') hno
    rw [hnone mapRosOperationTypeNames (by simp [mapRosOperationTypeNames, e0, e1, e2]),
      hnone mapOperationTypeNames (by simp [mapOperationTypeNames, e3, e4])]
    exact factoryDoes_null fun m => by cases m <;> simp [OperationRequested, hR, e0, e1, e2, e3, e4]

example : OperationRequested (.map [("once_every", .map [("s", .float 5)]), ("type", .str "prune_map")]) (.prune ⟨5⟩) ∧
    OperationUsable (.prune ⟨5⟩) :=
  ⟨⟨Or.inr ⟨_, rfl, by simp⟩, by decide +kernel⟩, (by decide +kernel : (0 : ℚ) < 5)⟩

/-- The inputs, as the ROS server creates them. -/
theorem C63_ros_input (params : Param.Value) (wf : params.Wf) :
    FactoryDoes (InputRequested params) InputUsable (RosInputFactory.create params) := by
  have h0 := named_iff rosInputTypeNames (by decide) params wf 0 "pointcloud_topic" rfl
  have h1 := named_iff rosInputTypeNames (by decide) params wf 1 "depth_image_topic" rfl
  unfold RosInputFactory.create
  generalize hs : TypeSelector.fromParams rosInputTypeNames params = s at h0 h1
  cases s with
  | none => exact factoryDoes_null fun m => by cases m <;> simp [InputRequested, h0, h1]
  | some t =>
    dsimp only
    split
    · subst t
      refine factoryDoes_from _ _ _ (fun m => by cases m <;> simp [InputRequested, h0, h1]) (fun c => ?_)
      simp only [InputUsable, Cfg.RosInputBase.isValid, Cfg.PointcloudTopicInput.isValid,
        TypeSelector.isValid, Bool.and_eq_true, decide_eq_true_eq]
      have : (pointcloudTopicTypeNames.length : Int) = 3 := rfl
      rw [this]
      simp only [Cfg.PointcloudTopicInput.base]
      tauto
    split
    · subst t
      refine factoryDoes_from _ _ _ (fun m => by cases m <;> simp [InputRequested, h0, h1]) (fun c => ?_)
      simp only [InputUsable, Cfg.RosInputBase.isValid, Cfg.DepthImageTopicInput.isValid,
        Bool.and_eq_true, decide_eq_true_eq]
      simp only [Cfg.DepthImageTopicInput.base]
      tauto
    · exact factoryDoes_null fun m => by cases m <;> simp [InputRequested, h0, h1, *]

/-- The maps made by the factory satisfy the conditions on configs under which the properties of the map data structures
are proved. -/
theorem C63_made_maps_are_valid (params : Param.Value) (wf : params.Wf) (dflt : Option Int) (m : MapObject)
    (h : MapFactory.create params dflt = .made m) :
    match m with
    | .hashedBlocks c => MapBaseConfig.isValid ⟨c.minCellWidth, c.minLogOdds, c.maxLogOdds⟩ = true
    | .octree c =>
      VolumetricOctreeConfig.isValid ⟨c.minCellWidth, c.minLogOdds, c.maxLogOdds, c.treeHeight.toNat⟩ = true ∧
        c.treeHeight.toNat ≤ 20
    | .waveletOctree c =>
      WaveletOctreeConfig.isValid ⟨c.minCellWidth, c.minLogOdds, c.maxLogOdds, c.treeHeight.toNat⟩ = true ∧
        c.treeHeight.toNat ≤ 21
    | .hashedWaveletOctree c =>
      HashedWaveletOctreeConfig.isValid
        ⟨c.minCellWidth, c.minLogOdds, c.maxLogOdds, c.treeHeight.toNat, c.onlyPruneBlocksIfUnusedFor⟩ = true
    | .hashedChunkedWaveletOctree c =>
      HashedWaveletOctreeConfig.isValidChunked
        ⟨c.minCellWidth, c.minLogOdds, c.maxLogOdds, c.treeHeight.toNat, c.onlyPruneBlocksIfUnusedFor⟩ = true := by
  have hu := (((C63_map params wf dflt).1 m).1 h).2
  cases m with
  | hashedBlocks c => simpa [MapUsable, MapBaseConfig.isValid] using hu
  | octree c =>
    obtain ⟨h1, h2, h3, h4⟩ := hu
    exact ⟨by simp [VolumetricOctreeConfig.isValid, h1, h2, h3], by omega⟩
  | waveletOctree c =>
    obtain ⟨h1, h2, h3, h4⟩ := hu
    exact ⟨by simp [WaveletOctreeConfig.isValid, h1, h2, h3], by omega⟩
  | hashedWaveletOctree c =>
    obtain ⟨h1, h2, h3⟩ := hu
    simp [HashedWaveletOctreeConfig.isValid, h1, h2, h3]
  | hashedChunkedWaveletOctree c =>
    obtain ⟨h1, h2, h3, h4⟩ := hu
    simp [HashedWaveletOctreeConfig.isValidChunked, HashedWaveletOctreeConfig.isValid, h1, h2, h3]
    exact h4

example : MapFactory.create (.map [("min_cell_width", .map [("cm", .int 20)]), ("type", .str "octree")]) none = .made (.octree ⟨1 / 5, -2, 4, 14⟩) := by decide +kernel

example : RosInputFactory.create (.map [("topic_name", .str "/points"), ("topic_type", .str "ouster"), ("measurement_integrator_names", .array [.str "lidar"]),
    ("type", .str "pointcloud_topic")]) = .made (.pointcloudTopic { topicName := "/points", topicType := 1, measurementIntegratorNames := ["lidar"] }) := by decide +kernel

end Wavemap
