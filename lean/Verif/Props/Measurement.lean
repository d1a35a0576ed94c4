import Verif.Lemmas.Measurement
/-!
# C42: the measurement update is well defined and bounded; C58: reported approximation error

`isValid` accepts any positive scale factors; the update is only finite when `scaling_free < 1` (and
`scaling_occupied ≤ 1`, which is sufficient), so the finiteness theorems are `_partial` and `C42_*_fails` gives accepted
configurations without a finite update.
-/
namespace Wavemap

/-! ## The cumulative distribution -/

/-- The approximate cumulative distribution takes values in `[0, 1]`, is monotone and never steeper than `3/8`; it is 0
from `-3` down and 1 from `3` up, and symmetric around `1/2`. -/
theorem C42_cumulative :
    (∀ t, 0 ≤ gaussCumulative t ∧ gaussCumulative t ≤ 1) ∧
    (∀ s t, s ≤ t → gaussCumulative s ≤ gaussCumulative t ∧ gaussCumulative t - gaussCumulative s ≤ 3 / 8 * (t - s)) ∧
    (∀ t ≤ -3, gaussCumulative t = 0) ∧ (∀ t ≥ 3, gaussCumulative t = 1) ∧
    (∀ t, gaussCumulative (-t) = 1 - gaussCumulative t) := by
  refine ⟨fun t => ⟨gauss_nonneg t, gauss_le_one t⟩, fun s t h => gauss_slope h, fun t h => gauss_low h,
    fun t h => gauss_high h, ?_⟩
  intro t
  rcases le_total t (-3) with h | h
  · rw [gauss_low h, gauss_high (by linarith)]; norm_num
  rcases le_total t (-1) with h1 | h1
  · rw [gauss_a h h1, gauss_c (by linarith) (by linarith)]; ring
  rcases le_total t 1 with h2 | h2
  · rw [gauss_b h1 h2, gauss_b (by linarith) (by linarith)]; ring
  rcases le_total t 3 with h3 | h3
  · rw [gauss_c h2 h3, gauss_a (by linarith) (by linarith)]; ring
  · rw [gauss_high h3, gauss_low (by linarith)]; norm_num

/-! ## Continuous ray -/

/-- The scale factors for which the update is finite everywhere. -/
def ContinuousRayConfig.Scaled (c : ContinuousRayConfig) : Prop :=
  c.Valid ∧ c.scalingFree < 1 ∧ c.scalingOccupied ≤ 1

/-- The free-space update. -/
noncomputable def ContinuousRayConfig.freeLogOdds (c : ContinuousRayConfig) : ℝ :=
  Real.log ((1 - c.scalingFree) / (1 + c.scalingFree))

theorem ray_free (c : ContinuousRayConfig) (h : c.Scaled) :
    c.freeSpaceUpdate = some c.freeLogOdds ∧ c.freeLogOdds < 0 := by
  obtain ⟨⟨_, hf, _⟩, hf1, _⟩ := h
  unfold ContinuousRayConfig.freeSpaceUpdate ContinuousRayConfig.freeLogOdds
  have e : (-1 / 2 * c.scalingFree + 1 / 2) / (1 - (-1 / 2 * c.scalingFree + 1 / 2))
      = (1 - c.scalingFree) / (1 + c.scalingFree) := by
    rw [div_eq_div_iff (by nlinarith) (by linarith)]; ring
  have h0 : 0 < -1 / 2 * c.scalingFree + 1 / 2 := by linarith
  have h1 : -1 / 2 * c.scalingFree + 1 / 2 < 1 := by linarith
  rw [logOdds_some h0 h1, e]
  refine ⟨rfl, ?_⟩
  rw [← e]
  exact (logOdds_sign h0 h1).1.2 (by linarith)

/-- One beam: for every cell distance and every measured distance the update is a number that is never below the
free-space update, and its sign is determined by the side of the measured surface: negative in front of it, zero on it,
positive up to `6 * range_sigma` behind it, zero from there on. From `3 * range_sigma` in front of the surface on, it is
exactly the free-space update. `_partial`: requires `scaling_free < 1` and `scaling_occupied ≤ 1`, which the configuration
check does not. -/
theorem C42_ray_beam_partial (c : ContinuousRayConfig) (h : c.Scaled) (depth measured : ℝ) :
    ∃ u, c.distanceUpdate depth measured = some u ∧ c.freeLogOdds ≤ u ∧
      (u < 0 ↔ depth < measured) ∧
      (0 < u ↔ measured < depth ∧ depth < measured + 6 * c.rangeSigma) ∧
      (depth ≤ measured - 3 * c.rangeSigma → u = c.freeLogOdds) := by
  obtain ⟨hfree, hneg⟩ := ray_free c h
  obtain ⟨⟨hs, hf, ho⟩, hf1, ho1⟩ := h
  unfold ContinuousRayConfig.distanceUpdate ContinuousRayConfig.thresholdBack ContinuousRayConfig.thresholdFront
  split
  · rename_i hb
    exact ⟨0, rfl, hneg.le, by constructor <;> intro <;> linarith,
      ⟨fun h => absurd h (lt_irrefl _), fun h => by linarith [h.2]⟩, fun h => by linarith⟩
  rename_i hb
  split
  · rename_i hfr
    exact ⟨_, hfree, le_rfl, ⟨fun _ => by linarith, fun _ => hneg⟩,
      ⟨fun h => by linarith, fun h => by linarith [h.1]⟩, fun _ => rfl⟩
  rename_i hfr
  unfold ContinuousRayConfig.fullBeamUpdate
  dsimp only
  set f := (depth - measured) / c.rangeSigma with hfdef
  have hdm : depth - measured = f * c.rangeSigma := by rw [hfdef]; field_simp
  have hf3 : -3 ≤ f := by
    rw [hfdef, le_div_iff₀ hs]; linarith
  have hf6 : f ≤ 6 := by
    rw [hfdef, div_le_iff₀ hs]; linarith
  have efree : c.freeLogOdds = Real.log ((-1 / 2 * c.scalingFree + 1 / 2) / (1 - (-1 / 2 * c.scalingFree + 1 / 2))) := by
    unfold ContinuousRayConfig.freeLogOdds
    congr 1
    rw [div_eq_div_iff (by linarith) (by nlinarith)]; ring
  rcases lt_trichotomy f 0 with hf0 | hf0 | hf0
  · obtain ⟨a, b⟩ := contrib_neg hf0
    rw [if_pos b]
    have p0 : 0 < c.scalingFree * rangeContrib f + 1 / 2 := by nlinarith
    have p1 : c.scalingFree * rangeContrib f + 1 / 2 < 1 := by nlinarith
    have ph : c.scalingFree * rangeContrib f + 1 / 2 < 1 / 2 := by nlinarith
    refine ⟨_, logOdds_some p0 p1, ?_, ?_, ?_, ?_⟩
    · rw [efree]
      exact logOdds_mono (by linarith) (by nlinarith) p1
    · exact ⟨fun _ => by nlinarith, fun _ => (logOdds_sign p0 p1).1.2 ph⟩
    · rw [(logOdds_sign p0 p1).2.1]
      exact ⟨fun h => by linarith, fun h => by nlinarith [h.1]⟩
    · intro hle
      have : f = -3 := by
        apply le_antisymm _ hf3
        rw [hfdef, div_le_iff₀ hs]; linarith
      rw [efree, this, contrib_low le_rfl]
      congr 2 <;> ring
  · have hd : depth = measured := by rw [hf0] at hdm; linarith
    rw [hf0, contrib_zero, if_neg (lt_irrefl _)]
    have p0 : (0 : ℝ) < c.scalingOccupied * 0 + 1 / 2 := by norm_num
    have p1 : c.scalingOccupied * 0 + 1 / 2 < (1 : ℝ) := by norm_num
    have e0 := (logOdds_sign p0 p1).2.2.2 (by ring)
    refine ⟨_, logOdds_some p0 p1, ?_, ?_, ?_, ?_⟩
    · rw [e0]; exact hneg.le
    · rw [e0]; exact ⟨fun h => absurd h (lt_irrefl _), fun h => by linarith⟩
    · rw [e0]; exact ⟨fun h => absurd h (lt_irrefl _), fun h => by linarith [h.1]⟩
    · intro; linarith
  · have hd : measured < depth := by nlinarith
    rcases eq_or_lt_of_le hf6 with h6 | h6
    · have hd6 : depth = measured + 6 * c.rangeSigma := by rw [h6] at hdm; linarith
      rw [h6, contrib_high le_rfl, if_neg (lt_irrefl _)]
      have p0 : (0 : ℝ) < c.scalingOccupied * 0 + 1 / 2 := by norm_num
      have p1 : c.scalingOccupied * 0 + 1 / 2 < (1 : ℝ) := by norm_num
      have e0 := (logOdds_sign p0 p1).2.2.2 (by ring)
      refine ⟨_, logOdds_some p0 p1, ?_, ?_, ?_, ?_⟩
      · rw [e0]; exact hneg.le
      · rw [e0]; exact ⟨fun h => absurd h (lt_irrefl _), fun h => by linarith⟩
      · rw [e0]; exact ⟨fun h => absurd h (lt_irrefl _), fun h => by linarith [h.2]⟩
      · intro; linarith
    · obtain ⟨a, b⟩ := contrib_pos hf0 h6
      rw [if_neg (by linarith)]
      have p0 : 0 < c.scalingOccupied * rangeContrib f + 1 / 2 := by nlinarith
      have p1 : c.scalingOccupied * rangeContrib f + 1 / 2 < 1 := by nlinarith
      have ph : 1 / 2 < c.scalingOccupied * rangeContrib f + 1 / 2 := by nlinarith
      have hpos := (logOdds_sign p0 p1).2.1.2 ph
      refine ⟨_, logOdds_some p0 p1, by linarith, ⟨fun h => by linarith, fun h => by linarith⟩, ?_, fun h => by linarith⟩
      exact ⟨fun _ => ⟨hd, by nlinarith⟩, fun _ => hpos⟩

/-- The hypotheses are met by the default scale factors. -/
example : (⟨1 / 10, 1 / 2, 1 / 2, .nearestNeighbor⟩ : ContinuousRayConfig).Scaled := by
  unfold ContinuousRayConfig.Scaled ContinuousRayConfig.Valid; norm_num

/-- Accepted configurations can have no finite update: with `scaling_free = 1` every cell well in front of the measured
surface gets `log 0`. -/
theorem C42_ray_fails : ∃ c : ContinuousRayConfig, c.Valid ∧
    ∀ depth measured : ℝ, depth < measured - 3 * c.rangeSigma → c.distanceUpdate depth measured = none := by
  refine ⟨⟨1, 1, 1, .nearestNeighbor⟩, ⟨by norm_num, by norm_num, by norm_num⟩, fun depth measured h => ?_⟩
  simp only at h
  unfold ContinuousRayConfig.distanceUpdate ContinuousRayConfig.thresholdBack ContinuousRayConfig.thresholdFront
  rw [if_neg (by simp only; linarith), if_pos (by simp only; linarith)]
  unfold ContinuousRayConfig.freeSpaceUpdate logOddsUpdate
  rw [if_neg (by norm_num)]

/-- Sum of four updates, if all of them are defined. -/
theorem sumUpdates_four (a b c d : ℝ) : sumUpdates [some a, some b, some c, some d] = some (a + b + c + d) := by
  unfold sumUpdates
  simp only [List.foldl_cons, List.foldl_nil, bind, Option.bind, pure]
  congr 1; ring

/-- Whole image: for every range image (also with pixels holding arbitrary values) and all sensor coordinates, the update
is a number, bounded below by the free-space update of the beams considered (one, or four neighbours). `_partial` as
above. -/
theorem C42_ray_update_partial (c : ContinuousRayConfig) (h : c.Scaled) (g : ImageGrid) (im : Image ℝ)
    (s : SensorCoordinates) :
    ∃ u, c.computeUpdate g im s = some u ∧
      (match c.beamSelector with | .nearestNeighbor => c.freeLogOdds | .allNeighbors => 4 * c.freeLogOdds) ≤ u := by
  have key : ∀ i, ∃ u, c.beamUpdate im s.depth i = some u ∧ c.freeLogOdds ≤ u := by
    intro i
    unfold ContinuousRayConfig.beamUpdate
    cases him : im.at i with
    | none => exact ⟨0, rfl, (ray_free c h).2.le⟩
    | some m => obtain ⟨u, hu, hl, _⟩ := C42_ray_beam_partial c h s.depth m; exact ⟨u, hu, hl⟩
  unfold ContinuousRayConfig.computeUpdate
  cases c.beamSelector with
  | nearestNeighbor => exact key _
  | allNeighbors =>
    simp only [ImageGrid.nearestIndices, List.map_cons, List.map_nil]
    obtain ⟨a, ha, ha'⟩ := key (⌊g.indexRealU s.u⌋, ⌊g.indexRealV s.v⌋)
    obtain ⟨b, hb, hb'⟩ := key (⌈g.indexRealU s.u⌉, ⌊g.indexRealV s.v⌋)
    obtain ⟨x, hx, hx'⟩ := key (⌊g.indexRealU s.u⌋, ⌈g.indexRealV s.v⌉)
    obtain ⟨d, hd, hd'⟩ := key (⌈g.indexRealU s.u⌉, ⌈g.indexRealV s.v⌉)
    refine ⟨a + b + x + d, ?_, by linarith⟩
    simp only [ImageGrid.floorIndex, ImageGrid.ceilIndex]
    rw [ha, hb, hx, hd, sumUpdates_four]

/-- Outside the image there is no update (nearest-neighbour beam selection). -/
theorem C42_ray_outside (c : ContinuousRayConfig) (hc : c.beamSelector = .nearestNeighbor) (g : ImageGrid) (im : Image ℝ)
    (s : SensorCoordinates) (h : im.inBounds (g.nearestIndex s.u s.v) = false) :
    c.computeUpdate g im s = some 0 := by
  unfold ContinuousRayConfig.computeUpdate
  rw [hc]
  simp only [ContinuousRayConfig.beamUpdate, Image.at, h]
  rfl

/-! ## Continuous beam -/

/-- The scale factors for which the update is finite everywhere. -/
def ContinuousBeamConfig.Scaled (c : ContinuousBeamConfig) : Prop :=
  c.Valid ∧ c.scalingFree < 1 ∧ c.scalingOccupied ≤ 1

/-- The free-space update on the axis of the beam. -/
noncomputable def ContinuousBeamConfig.freeLogOdds (c : ContinuousBeamConfig) : ℝ :=
  Real.log ((1 - c.scalingFree) / (1 + c.scalingFree))

/-- One beam: for every cell distance, angular offset and measured distance the update is a number that is never below
the free-space update; it is negative exactly inside the beam's cone in front of the surface, positive exactly inside the
cone up to `6 * range_sigma` behind it, and zero elsewhere. `_partial`: requires `scaling_free < 1` and
`scaling_occupied ≤ 1`, which the configuration check does not. -/
theorem C42_beam_partial (c : ContinuousBeamConfig) (h : c.Scaled) (distance errSq measured : ℝ) (he : 0 ≤ errSq) :
    ∃ u, c.beamUpdate distance errSq measured = some u ∧ c.freeLogOdds ≤ u ∧
      (u < 0 ↔ errSq < (6 * c.angleSigma) ^ 2 ∧ distance < measured) ∧
      (0 < u ↔ errSq < (6 * c.angleSigma) ^ 2 ∧ measured < distance ∧ distance < measured + 6 * c.rangeSigma) := by
  obtain ⟨⟨ha, hs, hf, ho⟩, hf1, ho1⟩ := h
  have efree : c.freeLogOdds = Real.log ((-1 / 2 * c.scalingFree + 1 / 2) / (1 - (-1 / 2 * c.scalingFree + 1 / 2))) := by
    unfold ContinuousBeamConfig.freeLogOdds
    congr 1
    rw [div_eq_div_iff (by linarith) (by nlinarith)]; ring
  have hneg : c.freeLogOdds < 0 := by
    rw [efree]
    exact (logOdds_sign (by linarith) (by linarith)).1.2 (by linarith)
  unfold ContinuousBeamConfig.beamUpdate ContinuousBeamConfig.angleThreshold ContinuousBeamConfig.thresholdBack
    ContinuousBeamConfig.thresholdFront
  split
  · rename_i hb
    refine ⟨0, rfl, hneg.le, ⟨fun h => absurd h (lt_irrefl _), fun h => ?_⟩, ⟨fun h => absurd h (lt_irrefl _), fun h => ?_⟩⟩
    · rcases hb with hb | hb
      · nlinarith [h.1]
      · nlinarith [h.2]
    · rcases hb with hb | hb
      · nlinarith [h.1]
      · linarith [h.2.2]
  rename_i hb
  push Not at hb
  obtain ⟨hb1, hb2⟩ := hb
  dsimp only
  -- the angular factor
  set γ := Real.sqrt errSq / c.angleSigma with hγ
  set A := 1 - gaussCumulative (γ - 3) with hA
  have hA0 : 0 ≤ A := by rw [hA]; linarith [gauss_le_one (γ - 3)]
  have hA1 : A ≤ 1 := by rw [hA]; linarith [gauss_nonneg (γ - 3)]
  have hApos : 0 < A ↔ errSq < (6 * c.angleSigma) ^ 2 := by
    have e1 : errSq < (6 * c.angleSigma) ^ 2 ↔ γ < 6 := by
      rw [hγ, div_lt_iff₀ ha, ← Real.sqrt_lt_sqrt_iff he, Real.sqrt_sq (by positivity)]
    rw [e1, hA]
    constructor
    · intro h
      by_contra hc
      rw [gauss_high (by linarith)] at h
      linarith
    · intro h
      have hγ0 : 0 ≤ γ := div_nonneg (Real.sqrt_nonneg _) ha.le
      rcases le_total γ 4 with h4 | h4
      · have := (gauss_slope (by linarith : γ - 3 ≤ 1)).1
        rw [gauss_b (t := 1) (by norm_num) le_rfl] at this
        norm_num at this; linarith
      · rw [gauss_c (by linarith) (by linarith)]
        have : 0 < (3 - (γ - 3)) ^ 3 := by have : 0 < 3 - (γ - 3) := by linarith
                                           positivity
        linarith
  -- a contribution with a given sign
  have neg : ∀ r : ℝ, -1 / 2 ≤ r → r < 0 → ∀ x, x = c.scalingFree * (r * A) + 1 / 2 →
      ∃ u, logOddsUpdate x = some u ∧ c.freeLogOdds ≤ u ∧ (u < 0 ↔ 0 < A) ∧ ¬ 0 < u := by
    intro r hr hr0 x hx
    have lo : -1 / 2 ≤ r * A := by nlinarith
    have hi : r * A ≤ 0 := by nlinarith
    have p0 : 0 < x := by rw [hx]; nlinarith
    have p1 : x < 1 := by rw [hx]; nlinarith
    refine ⟨_, logOdds_some p0 p1, ?_, ?_, ?_⟩
    · rw [efree]; exact logOdds_mono (by linarith) (by rw [hx]; nlinarith) p1
    · rw [(logOdds_sign p0 p1).1, hx]
      constructor
      · intro h
        rcases eq_or_lt_of_le hA0 with e | e
        · rw [← e] at h; norm_num at h
        · exact e
      · intro h
        have : r * A < 0 := mul_neg_of_neg_of_pos hr0 h
        nlinarith
    · rw [(logOdds_sign p0 p1).2.1, hx]; nlinarith
  by_cases hfr : distance < measured - 3 * c.rangeSigma
  · rw [if_pos hfr, if_pos (Or.inl hfr)]
    obtain ⟨u, h1, h2, h3, h4⟩ := neg (-1 / 2) le_rfl (by norm_num) _ rfl
    refine ⟨u, h1, h2, ?_, ⟨fun h => absurd h h4, fun h => by linarith [h.2.1]⟩⟩
    rw [h3, hApos]
    exact ⟨fun h => ⟨h, by linarith⟩, fun h => h.1⟩
  rw [if_neg hfr]
  set f := (distance - measured) / c.rangeSigma with hfdef
  have hdm : distance - measured = f * c.rangeSigma := by rw [hfdef]; field_simp
  have hf3 : -3 ≤ f := by rw [hfdef, le_div_iff₀ hs]; linarith
  have hf6 : f ≤ 6 := by rw [hfdef, div_le_iff₀ hs]; linarith
  by_cases hcn : rangeContrib f * A < 0
  · have hr0 : rangeContrib f < 0 := by by_contra hc; push Not at hc; nlinarith
    have hfneg : f < 0 := by
      by_contra hc; push Not at hc
      rcases eq_or_lt_of_le hc with e | e
      · rw [← e, contrib_zero] at hr0; exact lt_irrefl _ hr0
      · rcases eq_or_lt_of_le hf6 with e6 | e6
        · rw [e6, contrib_high le_rfl] at hr0; exact lt_irrefl _ hr0
        · linarith [(contrib_pos e e6).1]
    rw [if_pos (Or.inr hcn)]
    obtain ⟨u, h1, h2, h3, h4⟩ := neg _ (contrib_neg hfneg).1 hr0 _ rfl
    have hlt : distance < measured := by nlinarith
    refine ⟨u, h1, h2, ?_, ⟨fun h => absurd h h4, fun h => by linarith [h.2.1]⟩⟩
    rw [h3, hApos]
    exact ⟨fun h => ⟨h, hlt⟩, fun h => h.1⟩
  · rw [if_neg (by push Not; exact ⟨by linarith, by linarith⟩)]
    push Not at hcn
    rcases lt_trichotomy f 0 with hf0 | hf0 | hf0
    · -- no angular contribution
      have hA' : A = 0 := by
        rcases eq_or_lt_of_le hA0 with e | e
        · exact e.symm
        · have := (contrib_neg hf0).2; nlinarith
      have p0 : (0 : ℝ) < c.scalingOccupied * (rangeContrib f * A) + 1 / 2 := by rw [hA']; norm_num
      have p1 : c.scalingOccupied * (rangeContrib f * A) + 1 / 2 < (1 : ℝ) := by rw [hA']; norm_num
      have e0 := (logOdds_sign p0 p1).2.2.2 (by rw [hA']; ring)
      have nA : ¬ errSq < (6 * c.angleSigma) ^ 2 := by rw [← hApos, hA']; exact lt_irrefl _
      refine ⟨_, logOdds_some p0 p1, ?_, ?_, ?_⟩
      · rw [e0]; exact hneg.le
      · rw [e0]; exact ⟨fun h => absurd h (lt_irrefl _), fun h => absurd h.1 nA⟩
      · rw [e0]; exact ⟨fun h => absurd h (lt_irrefl _), fun h => absurd h.1 nA⟩
    · have hd : distance = measured := by rw [hf0] at hdm; linarith
      rw [hf0, contrib_zero]
      have p0 : (0 : ℝ) < c.scalingOccupied * (0 * A) + 1 / 2 := by norm_num
      have p1 : c.scalingOccupied * (0 * A) + 1 / 2 < (1 : ℝ) := by norm_num
      have e0 := (logOdds_sign p0 p1).2.2.2 (by ring)
      refine ⟨_, logOdds_some p0 p1, ?_, ?_, ?_⟩
      · rw [e0]; exact hneg.le
      · rw [e0]; exact ⟨fun h => absurd h (lt_irrefl _), fun h => by linarith [h.2]⟩
      · rw [e0]; exact ⟨fun h => absurd h (lt_irrefl _), fun h => by linarith [h.2.1]⟩
    · have hd : measured < distance := by nlinarith
      rcases eq_or_lt_of_le hf6 with h6 | h6
      · have hd6 : distance = measured + 6 * c.rangeSigma := by rw [h6] at hdm; linarith
        rw [h6, contrib_high le_rfl]
        have p0 : (0 : ℝ) < c.scalingOccupied * (0 * A) + 1 / 2 := by norm_num
        have p1 : c.scalingOccupied * (0 * A) + 1 / 2 < (1 : ℝ) := by norm_num
        have e0 := (logOdds_sign p0 p1).2.2.2 (by ring)
        refine ⟨_, logOdds_some p0 p1, ?_, ?_, ?_⟩
        · rw [e0]; exact hneg.le
        · rw [e0]; exact ⟨fun h => absurd h (lt_irrefl _), fun h => by linarith [h.2]⟩
        · rw [e0]; exact ⟨fun h => absurd h (lt_irrefl _), fun h => by linarith [h.2.2]⟩
      · obtain ⟨a, b⟩ := contrib_pos hf0 h6
        have hd6 : distance < measured + 6 * c.rangeSigma := by nlinarith
        have q0 : 0 ≤ rangeContrib f * A := mul_nonneg a.le hA0
        have q1 : rangeContrib f * A < 1 / 2 := by nlinarith
        have p0 : 0 < c.scalingOccupied * (rangeContrib f * A) + 1 / 2 := by nlinarith
        have p1 : c.scalingOccupied * (rangeContrib f * A) + 1 / 2 < 1 := by nlinarith
        have hnn : ¬ Real.log ((c.scalingOccupied * (rangeContrib f * A) + 1 / 2)
            / (1 - (c.scalingOccupied * (rangeContrib f * A) + 1 / 2))) < 0 := by
          rw [(logOdds_sign p0 p1).1]; nlinarith
        refine ⟨_, logOdds_some p0 p1, by linarith, ⟨fun h => absurd h hnn, fun h => by linarith [h.2]⟩, ?_⟩
        rw [(logOdds_sign p0 p1).2.1, ← hApos]
        constructor
        · intro h
          refine ⟨?_, hd, hd6⟩
          rcases eq_or_lt_of_le hA0 with e | e
          · rw [← e] at h; norm_num at h
          · exact e
        · intro h
          have : 0 < c.scalingOccupied * (rangeContrib f * A) := mul_pos ho (mul_pos a h.1)
          linarith

example : (⟨1 / 100, 1 / 10, 1 / 2, 1 / 2, .allNeighbors⟩ : ContinuousBeamConfig).Scaled := by
  unfold ContinuousBeamConfig.Scaled ContinuousBeamConfig.Valid; norm_num

/-- Accepted configurations can have no finite update: with `scaling_free = 1` the axis of the beam well in front of the
measured surface gets `log 0`. -/
theorem C42_beam_fails : ∃ c : ContinuousBeamConfig, c.Valid ∧
    ∀ distance measured : ℝ, distance < measured - 3 * c.rangeSigma → c.beamUpdate distance 0 measured = none := by
  refine ⟨⟨1, 1, 1, 1, .nearestNeighbor⟩, ⟨by norm_num, by norm_num, by norm_num, by norm_num⟩, fun distance measured h => ?_⟩
  simp only at h
  unfold ContinuousBeamConfig.beamUpdate ContinuousBeamConfig.angleThreshold ContinuousBeamConfig.thresholdBack
    ContinuousBeamConfig.thresholdFront
  rw [if_neg (by push Not; constructor <;> simp only <;> linarith)]
  dsimp only
  rw [if_pos (c := _ ∨ _) (Or.inl h), if_pos h, Real.sqrt_zero, gauss_low (by norm_num)]
  unfold logOddsUpdate
  rw [if_neg (by norm_num)]

/-- The four-neighbour beam model treats a neighbour outside the image as a measurement at distance zero: a cell within
`6 * range_sigma` of the sensor is pushed towards occupied although no pixel was measured. -/
theorem C42_beam_outside_fails : ∃ (c : ContinuousBeamConfig) (g : ImageGrid) (errSq : ℝ × ℝ → ℝ × ℝ → ℝ)
    (im : Image ℝ) (off : Image (ℝ × ℝ)) (s : SensorCoordinates) (u : ℝ), c.Scaled ∧ 0 < s.depth ∧
    im.rows = 0 ∧ im.cols = 0 ∧ c.computeUpdate g errSq im off s = some u ∧ 0 < u := by
  have hc : (⟨1, 1, 1 / 2, 1 / 2, .allNeighbors⟩ : ContinuousBeamConfig).Scaled := by
    unfold ContinuousBeamConfig.Scaled ContinuousBeamConfig.Valid; norm_num
  obtain ⟨u, hu, _, _, hpos⟩ := C42_beam_partial _ hc 1 0 0 le_rfl
  have hup : 0 < u := hpos.2 (by norm_num)
  refine ⟨⟨1, 1, 1 / 2, 1 / 2, .allNeighbors⟩, ⟨1, 1, 0, 0⟩, fun _ _ => 0, ⟨0, 0, fun _ _ => 0⟩,
    ⟨0, 0, fun _ _ => 0⟩, ⟨0, 0, 1⟩, u + u + u + u, hc, by norm_num, rfl, rfl, ?_, by linarith⟩
  have hout : ∀ i : Idx2, (⟨0, 0, fun _ _ => 0⟩ : Image ℝ).at i = none := by
    intro i
    unfold Image.at Image.inBounds
    rw [if_neg]
    simp only [Bool.and_eq_true, decide_eq_true_eq, Nat.cast_zero]
    omega
  unfold ContinuousBeamConfig.computeUpdate
  simp only [ImageGrid.nearestIndicesAndOffsets, ImageGrid.nearestIndices, List.map_cons, List.map_nil, hout]
  rw [hu, sumUpdates_four]

/-! ## Range gate -/

/-- Cells closer than `min_range` or further than `max_range` are never updated, whatever the measurement model; other
cells get exactly the model's update. -/
theorem C42_range_gate (c : ProjectiveIntegratorConfig) (model : SensorCoordinates → Option ℝ) (s : SensorCoordinates) :
    (s.depth < c.minRange → projectiveUpdate c model s = some 0) ∧
    (c.maxRange < s.depth → projectiveUpdate c model s = some 0) ∧
    (c.minRange ≤ s.depth → s.depth ≤ c.maxRange → projectiveUpdate c model s = model s) := by
  unfold projectiveUpdate
  refine ⟨fun h => if_pos (Or.inl h), fun h => if_pos (Or.inr h), fun h1 h2 => if_neg ?_⟩
  push Not; exact ⟨h1, h2⟩

/-- The constant ray model: the cell holding the end point gets the occupied update and all others the free update. -/
theorem C42_constant_ray (c : ConstantRayConfig) (w : ℚ) (endPoint : Point 3) (index : Index 3) :
    constantRayUpdate c w endPoint index =
      if (∀ i, index i = pointToNearestIndex endPoint (1 / w) i) then c.logOddsOccupied else c.logOddsFree := by
  unfold constantRayUpdate
  simp only [← funext_iff]

/-! ## C58: the approximation error reported to the coarse-to-fine integrators -/

/-- The probability behind the update of a continuous ray. -/
noncomputable def ContinuousRayConfig.probability (c : ContinuousRayConfig) (depth measured : ℝ) : ℝ :=
  let r := rangeContrib ((depth - measured) / c.rangeSigma)
  (if r < 0 then c.scalingFree * r else c.scalingOccupied * r) + 1 / 2

theorem contrib_slope {a b : ℝ} (h : a ≤ b) : |rangeContrib b - rangeContrib a| ≤ 3 / 8 * (b - a) := by
  unfold rangeContrib
  have x := gauss_slope h
  have y := gauss_slope (by linarith : a - 3 ≤ b - 3)
  rw [abs_le]
  constructor <;> linarith [x.1, x.2, y.1, y.2]

/-- If `scaling_free ≤ scaling_occupied`, then within a cell seen by one pixel the *probability* behind the update differs
from the one at the cell's centre by at most the reported worst-case error. `_partial`: the error is documented and used as
a bound on the log-odds update, for which it does not hold (`C58_log_odds_fails`). -/
theorem C58_probability_error_partial (c : ContinuousRayConfig) (h : c.Valid) (hfo : c.scalingFree ≤ c.scalingOccupied)
    (measured center depth radius : ℝ) (hr : |depth - center| ≤ radius) :
    |c.probability depth measured - c.probability center measured| ≤ c.worstCaseErrorOccupied radius := by
  obtain ⟨hs, hf, ho⟩ := h
  have main : ∀ a b : ℝ, a ≤ b → |c.probability b measured - c.probability a measured|
      ≤ 3 / 8 * c.scalingOccupied / c.rangeSigma * (b - a) := by
    intro a b hab
    have hx : (a - measured) / c.rangeSigma ≤ (b - measured) / c.rangeSigma := by
      rw [div_le_div_iff_of_pos_right hs]; linarith
    have hd := contrib_slope hx
    have e : (b - measured) / c.rangeSigma - (a - measured) / c.rangeSigma = (b - a) / c.rangeSigma := by
      field_simp; ring
    rw [e] at hd
    have goal : |c.probability b measured - c.probability a measured| ≤ c.scalingOccupied
        * |rangeContrib ((b - measured) / c.rangeSigma) - rangeContrib ((a - measured) / c.rangeSigma)| := by
      unfold ContinuousRayConfig.probability
      dsimp only
      generalize rangeContrib ((b - measured) / c.rangeSigma) = p
      generalize rangeContrib ((a - measured) / c.rangeSigma) = q
      rcases le_total q p with hqp | hqp
      · rw [abs_of_nonneg (by linarith : 0 ≤ p - q), abs_le]
        split <;> split <;> constructor <;> nlinarith
      · rw [abs_of_nonpos (by linarith : p - q ≤ 0), abs_le]
        split <;> split <;> constructor <;> nlinarith
    refine goal.trans ?_
    calc c.scalingOccupied * _ ≤ c.scalingOccupied * (3 / 8 * ((b - a) / c.rangeSigma)) :=
          mul_le_mul_of_nonneg_left hd ho.le
      _ = _ := by ring
  have mono : ∀ x, x ≤ radius → 3 / 8 * c.scalingOccupied / c.rangeSigma * x ≤ c.worstCaseErrorOccupied radius := by
    intro x hx
    unfold ContinuousRayConfig.worstCaseErrorOccupied
    exact mul_le_mul_of_nonneg_left hx (by positivity)
  rcases le_total center depth with hcd | hcd
  · exact (main _ _ hcd).trans (mono _ (by rwa [abs_of_nonneg (by linarith)] at hr))
  · rw [abs_sub_comm]
    exact (main _ _ hcd).trans (mono _ (by rw [abs_of_nonpos (by linarith)] at hr; linarith))

/-- A concrete cell of radius 1/4 around depth 2, seen through a pixel at 2.1: the reported error is below one half. -/
example : let c : ContinuousRayConfig := ⟨1 / 10, 1 / 5, 2 / 5, .nearestNeighbor⟩
    |c.probability (9 / 4) (21 / 10) - c.probability 2 (21 / 10)| ≤ c.worstCaseErrorOccupied (1 / 4) ∧
      c.worstCaseErrorOccupied (1 / 4) < 1 / 2 :=
  ⟨C58_probability_error_partial _ ⟨by norm_num, by norm_num, by norm_num⟩ (by norm_num) _ _ _ _
    (by rw [abs_of_nonneg] <;> norm_num), by unfold ContinuousRayConfig.worstCaseErrorOccupied; norm_num⟩

/-- The reported worst-case error does not bound the difference between log-odds updates within a cell. -/
theorem C58_log_odds_fails : ∃ (c : ContinuousRayConfig) (measured center depth radius u v : ℝ), c.Scaled ∧
    |depth - center| ≤ radius ∧ c.distanceUpdate center measured = some u ∧ c.distanceUpdate depth measured = some v ∧
    c.worstCaseErrorOccupied radius < |v - u| := by
  have r0 : rangeContrib 0 = 0 := contrib_zero
  have r1 : rangeContrib 1 = 31 / 96 := by
    unfold rangeContrib
    rw [gauss_b (t := 1) (by norm_num) le_rfl, gauss_a (t := 1 - 3) (by norm_num) (by norm_num)]; norm_num
  refine ⟨⟨1, 1 / 2, 1 / 2, .nearestNeighbor⟩, 1, 1, 2, 1, Real.log (1 / 2 / (1 - 1 / 2)),
    Real.log (127 / 192 / (1 - 127 / 192)), ⟨⟨by norm_num, by norm_num, by norm_num⟩, by norm_num, by norm_num⟩,
    by norm_num, ?_, ?_, ?_⟩
  · unfold ContinuousRayConfig.distanceUpdate ContinuousRayConfig.thresholdBack ContinuousRayConfig.thresholdFront
    rw [if_neg (by norm_num), if_neg (by norm_num)]
    unfold ContinuousRayConfig.fullBeamUpdate
    dsimp only
    rw [show ((1 : ℝ) - 1) / 1 = 0 by norm_num, r0, if_neg (lt_irrefl _),
      show (1 / 2 : ℝ) * 0 + 1 / 2 = 1 / 2 by norm_num]
    exact logOdds_some (by norm_num) (by norm_num)
  · unfold ContinuousRayConfig.distanceUpdate ContinuousRayConfig.thresholdBack ContinuousRayConfig.thresholdFront
    rw [if_neg (by norm_num), if_neg (by norm_num)]
    unfold ContinuousRayConfig.fullBeamUpdate
    dsimp only
    rw [show ((2 : ℝ) - 1) / 1 = 1 by norm_num, r1, if_neg (by norm_num),
      show (1 / 2 : ℝ) * (31 / 96) + 1 / 2 = 127 / 192 by norm_num]
    exact logOdds_some (by norm_num) (by norm_num)
  · unfold ContinuousRayConfig.worstCaseErrorOccupied
    rw [show (1 / 2 : ℝ) / (1 - 1 / 2) = 1 by norm_num, Real.log_one, sub_zero]
    have := Real.one_sub_inv_le_log_of_pos (show (0:ℝ) < 127 / 192 / (1 - 127 / 192) by norm_num)
    refine lt_of_lt_of_le ?_ (le_abs_self _)
    refine lt_of_lt_of_le ?_ this
    norm_num

end Wavemap
