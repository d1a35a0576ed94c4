import Verif.Lemmas.SingleMeasurement
import Verif.Props.Measurement
import Mathlib.Analysis.SpecialFunctions.Log.Base
/-!
# C92: the measurement models in single precision
-/
namespace Wavemap
open Single SingleCamera SingleMeasurement

/-! ## Specification -/

/-- What is assumed of `std::log`: no order is reversed, the logarithm of one is zero and the error is at most four units in the last place. -/
structure IsLogSingle (logF : ℚ → ℚ) : Prop where
  mono : ∀ x y, 0 < x → x ≤ y → logF x ≤ logF y
  one : logF 1 = 0
  accurate : ∀ x, 0 < x → |(logF x : ℝ) - Real.log x| ≤ |Real.log x| / 2 ^ 22

/-- What is assumed of `std::sqrt`: the result is rounded correctly, as the standard for floating point numbers asks. -/
def IsSqrtSingle (sqrtF : ℚ → ℚ) : Prop := ∀ x, 0 ≤ x → |(sqrtF x : ℝ) - Real.sqrt x| ≤ Real.sqrt x / 2 ^ 24

/-- Accepted by `isValid`, with weights that keep the probability of a cell between zero and one. -/
structure Single.RayConfig.Scaled (c : RayConfig) : Prop where
  sigma : 0 < c.rangeSigma
  free : 0 < c.scalingFree ∧ c.scalingFree < 1 ∧ IsFloat c.scalingFree
  occupied : 0 < c.scalingOccupied ∧ c.scalingOccupied ≤ 1

/-- The same configuration, for the model without rounding. -/
def Single.RayConfig.exact (c : RayConfig) : ContinuousRayConfig := ⟨c.rangeSigma, c.scalingFree, c.scalingOccupied, .nearestNeighbor⟩

/-- Accepted by `isValid`, with weights that keep the probability of a cell between zero and one. -/
structure Single.BeamConfig.Scaled (c : BeamConfig) : Prop where
  sigma : 0 < c.angleSigma ∧ 0 < c.rangeSigma
  free : 0 < c.scalingFree ∧ c.scalingFree < 1 ∧ IsFloat c.scalingFree
  occupied : 0 < c.scalingOccupied ∧ c.scalingOccupied ≤ 1

/-- The same configuration, for the model without rounding. -/
def Single.BeamConfig.exact (c : BeamConfig) : ContinuousBeamConfig :=
  ⟨c.angleSigma, c.rangeSigma, c.scalingFree, c.scalingOccupied, .nearestNeighbor⟩

/-! ## The cumulative distribution -/

/-- The rounded distribution stays between zero and one, is on the right side of one half, and differs from the exact one by at most `2 ^ -21`. -/
theorem C92_cumulative (t : ℚ) : 0 ≤ cumulative t ∧ cumulative t ≤ 1 ∧ (t ≤ 0 → cumulative t ≤ 1 / 2) ∧ (0 ≤ t → 1 / 2 ≤ cumulative t) ∧
    |(cumulative t : ℝ) - gaussCumulative t| ≤ 1 / 2 ^ 21 := by
  obtain ⟨h0, h1, h2, h3, h4⟩ := cumulative_spec t
  refine ⟨h0, h1, h3, h4, ?_⟩
  have := (Rat.cast_le (K := ℝ)).2 h2
  push_cast at this
  rwa [gaussQ_cast] at this

example : cumulative 1 ≠ (gaussQ 1) ∧ |cumulative 1 - 5 / 6| ≤ 1 / 2 ^ 21 := by decide +kernel

/-! ## The continuous ray -/

namespace SingleMeasurement

theorem ray_prob {c : RayConfig} (hc : c.Scaled) (depth measured : ℚ) :
    c.freeProbability ≤ c.fullProbability depth measured ∧ c.fullProbability depth measured ≤ 971 / 1000 ∧
    (depth ≤ measured → c.fullProbability depth measured ≤ 1 / 2) ∧ (measured ≤ depth → 1 / 2 ≤ c.fullProbability depth measured) ∧
    |c.fullProbability depth measured - (scaleQ c.scalingFree c.scalingOccupied (Single.rangeContrib (fl (fl (depth - measured) / c.rangeSigma))) + 1 / 2)| ≤ 2 / 2 ^ 24 := by
  obtain ⟨hs, ⟨f0, f1, -⟩, o0, o1⟩ := hc
  have e : c.fullProbability depth measured = probOf c.scalingFree c.scalingOccupied (Single.rangeContrib (fl (fl (depth - measured) / c.rangeSigma))) := rfl
  obtain ⟨T, hT, eT⟩ := offset_err depth measured c.rangeSigma
  have hr := abs_le.1 (rangeContrib_err ((depth - measured) / c.rangeSigma) hT)
  rw [← eT] at hr
  have hq := rangeQ_le ((depth - measured) / c.rangeSigma)
  have r1 : Single.rangeContrib (fl (fl (depth - measured) / c.rangeSigma)) ≤ 94 / 200 := by have := hr.2; norm_num at this ⊢; linarith
  obtain ⟨p1, p2, p3, p4, p5⟩ := probOf_spec f0.le f1.le o0.le o1 (rangeContrib_ge (fl (fl (depth - measured) / c.rangeSigma))) r1
  rw [e]
  refine ⟨p2, p3, fun h => p4 (rangeContrib_nonpos ?_), fun h => p5 (rangeContrib_nonneg ?_), p1⟩
  · rw [eT]
    exact mul_nonpos_of_nonpos_of_nonneg (div_nonpos_of_nonpos_of_nonneg (by linarith) hs.le) hT.pos.le
  · rw [eT]
    exact mul_nonneg (div_nonneg (by linarith) hs.le) hT.pos.le

/-- The exact probability. -/
noncomputable def rayQ (c : RayConfig) (depth measured : ℚ) : ℝ :=
  scaleR c.scalingFree c.scalingOccupied (rangeQ ((depth - measured) / c.rangeSigma) : ℚ) + 1 / 2

theorem rayQ_range {c : RayConfig} (hc : c.Scaled) (depth measured : ℚ) : (1 - (c.scalingFree : ℝ)) / 2 ≤ rayQ c depth measured ∧ rayQ c depth measured ≤ 193 / 200 := by
  obtain ⟨hs, ⟨f0, f1, -⟩, o0, o1⟩ := hc
  have a := rangeQ_ge ((depth - measured) / c.rangeSigma)
  have b := rangeQ_le ((depth - measured) / c.rangeSigma)
  have a' := (Rat.cast_le (K := ℝ)).2 a
  have b' := (Rat.cast_le (K := ℝ)).2 b
  push_cast at a' b'
  obtain ⟨h1, h2⟩ := scaleR_range (free := c.scalingFree) (occ := c.scalingOccupied) (r := (rangeQ ((depth - measured) / c.rangeSigma) : ℚ))
    (by exact_mod_cast f0.le) (by exact_mod_cast o0.le) (by exact_mod_cast o1) a' b'
  unfold rayQ
  constructor <;> linarith

theorem ray_exact {c : RayConfig} (hc : c.Scaled) (depth measured : ℚ) :
    c.exact.distanceUpdate depth measured = some (Real.log (rayQ c depth measured / (1 - rayQ c depth measured))) := by
  obtain ⟨q0, q1⟩ := rayQ_range hc depth measured
  obtain ⟨hs, ⟨f0, f1, -⟩, o0, o1⟩ := hc
  have hsR : (0 : ℝ) < c.rangeSigma := by exact_mod_cast hs
  have f1R : (c.scalingFree : ℝ) < 1 := by exact_mod_cast f1
  have hpos : 0 < rayQ c depth measured := by linarith
  unfold ContinuousRayConfig.distanceUpdate ContinuousRayConfig.thresholdBack ContinuousRayConfig.thresholdFront RayConfig.exact
  dsimp only
  split
  · rename_i h
    have h' : 6 * c.rangeSigma < depth - measured := by exact_mod_cast h
    have : rangeQ ((depth - measured) / c.rangeSigma) = 0 := rangeQ_high (by rw [le_div_iff₀ hs]; linarith)
    unfold rayQ
    rw [this]
    unfold scaleR
    norm_num
  split
  · rename_i h
    have h' : depth < measured - 3 * c.rangeSigma := by exact_mod_cast h
    have e : rangeQ ((depth - measured) / c.rangeSigma) = -1 / 2 := rangeQ_low (by rw [div_le_iff₀ hs]; linarith)
    have e2 : rayQ c depth measured = -1 / 2 * c.scalingFree + 1 / 2 := by
      unfold rayQ
      rw [e]
      unfold scaleR
      rw [if_pos (by norm_num)]
      push_cast
      ring
    unfold ContinuousRayConfig.freeSpaceUpdate logOddsUpdate
    dsimp only
    rw [← e2, if_pos ⟨hpos, by linarith⟩]
  · unfold ContinuousRayConfig.fullBeamUpdate logOddsUpdate
    dsimp only
    have e : (((depth : ℝ) - measured) / c.rangeSigma) = (((depth - measured) / c.rangeSigma : ℚ) : ℝ) := by push_cast; rfl
    rw [e, ← rangeQ_cast]
    have e2 : ((if ((rangeQ ((depth - measured) / c.rangeSigma) : ℚ) : ℝ) < 0 then (c.scalingFree : ℝ) * (rangeQ ((depth - measured) / c.rangeSigma) : ℚ)
        else (c.scalingOccupied : ℝ) * (rangeQ ((depth - measured) / c.rangeSigma) : ℚ)) + 1 / 2) = rayQ c depth measured := rfl
    rw [e2, if_pos ⟨hpos, by linarith⟩]

/-- From the probability to the update. -/
theorem update_err {logF : ℚ → ℚ} (hl : IsLogSingle logF) {p w : ℚ} {Q : ℝ} (hw : 0 < w) (hw1 : w ≤ 1) (hp : w / 2 * (1 - 1 / 2 ^ 24) ≤ p) (hp1 : p ≤ 971 / 1000)
    (qr : (w : ℝ) / 2 * (1 - 1 / 2 ^ 24) ≤ Q) (qr1 : Q ≤ 971 / 1000) (hr : |(p : ℝ) - Q| ≤ 60 / 2 ^ 24) :
    |(logF (oddsOf p) : ℝ) - Real.log (Q / (1 - Q))| ≤ 1 / 2 ^ 12 / w := by
  obtain ⟨h1, h2⟩ := logit_err hw hw1 hp hp1 qr qr1 hr
  have p0 : 0 < p := lt_of_lt_of_le (mul_pos (by linarith) (by norm_num)) hp
  have h3 := hl.accurate _ (oddsOf_pos p0 (by linarith))
  have wr : (0 : ℝ) < w := by exact_mod_cast hw
  have e1 : (3 : ℝ) / 2 ^ 14 / w = 3 / 2 ^ 14 * (1 / w) := by ring
  have e2 : (40 : ℝ) / w = 40 * (1 / w) := by ring
  have e3 : (1 : ℝ) / 2 ^ 12 / w = 1 / 2 ^ 12 * (1 / w) := by ring
  have hV : (0 : ℝ) < 1 / w := one_div_pos.2 wr
  rw [e1] at h1
  rw [e2] at h2
  rw [e3]
  generalize (1 : ℝ) / w = V at *
  have a1 := abs_le.1 h1
  have a3 := abs_le.1 (h3.trans (div_le_div_of_nonneg_right h2 (by norm_num)))
  rw [abs_le]
  norm_num at a1 a3 ⊢
  constructor <;> linarith [a1.1, a1.2, a3.1, a3.2]

end SingleMeasurement

/-- The rounded update of a cell by a ray is finite, is never below the one of free space, is not positive in front of the measured surface and not negative behind it. -/
theorem C92_ray (logF : ℚ → ℚ) (hl : IsLogSingle logF) (c : RayConfig) (hc : c.Scaled) (depth measured : ℚ) (hm : IsFloat measured) :
    ∃ u free, c.distanceUpdate logF depth measured = some u ∧ c.freeSpaceUpdate logF = some free ∧ free ≤ u ∧ free ≤ 0 ∧
      (depth ≤ measured → u ≤ 0) ∧ (measured ≤ depth → 0 ≤ u) := by
  obtain ⟨g0, -, g2⟩ := freeProb hc.free.2.2 hc.free.1.le hc.free.2.1
  have gf : c.freeProbability = fl (fl (-1 / 2 * c.scalingFree) + 1 / 2) := rfl
  rw [← gf] at g0 g2
  have hfree : c.freeSpaceUpdate logF = some (logF (oddsOf c.freeProbability)) := logOdds_eq logF g0 (by linarith)
  have hneg : logF (oddsOf c.freeProbability) ≤ 0 := by
    have := hl.mono _ _ (oddsOf_pos g0 (by linarith)) (oddsOf_mono g0 g2 (by norm_num))
    rwa [oddsOf_half, hl.one] at this
  unfold RayConfig.distanceUpdate
  split
  · exact ⟨0, _, rfl, hfree, hneg, hneg, fun _ => le_rfl, fun _ => le_rfl⟩
  split
  · rename_i h
    refine ⟨_, _, hfree, hfree, le_rfl, hneg, fun _ => hneg, fun h2 => ?_⟩
    have h3 : measured - c.thresholdFront ≤ measured := by
      have := fl_mono (show (0 : ℚ) ≤ 3 * c.rangeSigma by have := hc.sigma; linarith)
      rw [fl_zero] at this
      unfold RayConfig.thresholdFront
      linarith
    have h4 := fl_mono h3
    rw [fl_of_isFloat hm] at h4
    linarith
  · obtain ⟨p1, p2, p3, p4, -⟩ := ray_prob hc depth measured
    have p0 : 0 < c.fullProbability depth measured := lt_of_lt_of_le g0 p1
    refine ⟨_, _, logOdds_eq logF p0 (by linarith), hfree, hl.mono _ _ (oddsOf_pos g0 (by linarith)) (oddsOf_mono g0 p1 (by linarith)), hneg, fun h => ?_, fun h => ?_⟩
    · have := hl.mono _ _ (oddsOf_pos p0 (by linarith)) (oddsOf_mono p0 (p3 h) (by norm_num))
      rwa [oddsOf_half, hl.one] at this
    · have := hl.mono _ _ (oddsOf_pos (by norm_num) (by norm_num)) (oddsOf_mono (by norm_num) (p4 h) (by linarith))
      rwa [oddsOf_half, hl.one] at this

/-- The rounded update of a cell by a ray and the exact one differ by at most `2 ^ -12 / (1 - scaling_free)`, wherever the cell is. -/
theorem C92_ray_error (logF : ℚ → ℚ) (hl : IsLogSingle logF) (c : RayConfig) (hc : c.Scaled) (depth measured : ℚ) (hd : IsFloat depth) :
    ∃ (u : ℚ) (v : ℝ), c.distanceUpdate logF depth measured = some u ∧ c.exact.distanceUpdate depth measured = some v ∧
      |(u : ℝ) - v| ≤ 1 / 2 ^ 12 / (1 - c.scalingFree) := by
  obtain ⟨f0, f1, ff⟩ := hc.free
  obtain ⟨g0, g1, g2⟩ := freeProb ff f0.le f1
  have gf : c.freeProbability = fl (fl (-1 / 2 * c.scalingFree) + 1 / 2) := rfl
  rw [← gf] at g0 g1 g2
  obtain ⟨q0, q1⟩ := rayQ_range hc depth measured
  have f1R : (c.scalingFree : ℝ) < 1 := by exact_mod_cast f1
  have hw : 0 < 1 - c.scalingFree := by linarith
  have hw1 : 1 - c.scalingFree ≤ 1 := by linarith
  have ew : (((1 - c.scalingFree : ℚ)) : ℝ) = 1 - c.scalingFree := by push_cast; rfl
  have qr : (((1 - c.scalingFree : ℚ)) : ℝ) / 2 * (1 - 1 / 2 ^ 24) ≤ rayQ c depth measured := by
    rw [ew]; norm_num; linarith
  have main : ∀ p : ℚ, (1 - c.scalingFree) / 2 * (1 - 1 / 2 ^ 24) ≤ p → p ≤ 971 / 1000 → |(p : ℝ) - rayQ c depth measured| ≤ 60 / 2 ^ 24 →
      |(logF (oddsOf p) : ℝ) - Real.log (rayQ c depth measured / (1 - rayQ c depth measured))| ≤ 1 / 2 ^ 12 / (1 - c.scalingFree) := by
    intro p h1 h2 h3
    have := update_err hl hw hw1 h1 h2 qr (by linarith) h3
    rwa [ew] at this
  rw [ray_exact hc]
  have scale : ∀ (r e : ℚ), |r - rangeQ ((depth - measured) / c.rangeSigma)| ≤ e →
      |((scaleQ c.scalingFree c.scalingOccupied r + 1 / 2 : ℚ) : ℝ) - rayQ c depth measured| ≤ e := by
    intro r e h
    have h1 := scaleR_lip (free := c.scalingFree) (occ := c.scalingOccupied) (by exact_mod_cast f0.le) f1R.le (by exact_mod_cast hc.occupied.1.le)
      (by exact_mod_cast hc.occupied.2) (r : ℝ) (rangeQ ((depth - measured) / c.rangeSigma) : ℚ)
    have h2 := (Rat.cast_le (K := ℝ)).2 h
    push_cast at h2
    unfold rayQ
    push_cast
    rw [scaleQ_cast, add_sub_add_right_eq_sub]
    exact h1.trans h2
  unfold RayConfig.distanceUpdate
  split
  · rename_i h
    refine ⟨0, _, rfl, rfl, ?_⟩
    have h1 : 6 * c.rangeSigma < depth - measured := by
      by_contra h2
      push Not at h2
      have := fl_mono h2
      unfold RayConfig.thresholdBack at h
      linarith
    have h2 : rangeQ ((depth - measured) / c.rangeSigma) = 0 := rangeQ_high (by rw [le_div_iff₀ hc.sigma]; linarith)
    have h3 := scale 0 0 (by rw [h2]; norm_num)
    have h4 : rayQ c depth measured = 1 / 2 := by
      rw [Rat.cast_zero] at h3
      have := abs_nonpos_iff.1 h3
      unfold scaleQ at this
      norm_num at this
      linarith
    rw [h4]
    norm_num
    exact div_nonneg (by norm_num) (by linarith)
  split
  · rename_i h
    refine ⟨_, _, logOdds_eq logF g0 (by linarith), rfl, main _ g1 (by linarith) ?_⟩
    have h1 := free_near hc.sigma hd h
    have h2 := scale (-1 / 2) (2 / 2 ^ 24) (by rw [abs_sub_comm]; exact h1)
    have h3 : |c.freeProbability - (scaleQ c.scalingFree c.scalingOccupied (-1 / 2) + 1 / 2)| ≤ 2 / 2 ^ 24 := by
      have := (probOf_spec (r := -1 / 2) f0.le f1.le hc.occupied.1.le hc.occupied.2 le_rfl (by norm_num)).1
      have e : probOf c.scalingFree c.scalingOccupied (-1 / 2) = c.freeProbability := by
        unfold probOf
        rw [if_pos (by norm_num), gf, mul_comm c.scalingFree]
      rwa [e] at this
    have h4 := (Rat.cast_le (K := ℝ)).2 h3
    rw [Rat.cast_abs, Rat.cast_sub] at h4
    push_cast at h2 h4
    have a2 := abs_le.1 h2
    have a4 := abs_le.1 h4
    rw [abs_le]
    norm_num at a2 a4 ⊢
    constructor <;> linarith [a2.1, a2.2, a4.1, a4.2]
  · obtain ⟨p1, p2, -, -, p5⟩ := ray_prob hc depth measured
    refine ⟨_, _, logOdds_eq logF (lt_of_lt_of_le g0 p1) (by linarith), rfl, main _ (g1.trans p1) p2 ?_⟩
    obtain ⟨T, hT, eT⟩ := offset_err depth measured c.rangeSigma
    have hr := rangeContrib_err ((depth - measured) / c.rangeSigma) hT
    rw [← eT] at hr
    have h2 := scale _ _ hr
    have h4 := (Rat.cast_le (K := ℝ)).2 p5
    rw [Rat.cast_abs, Rat.cast_sub] at h4
    push_cast at h2 h4
    have a2 := abs_le.1 h2
    have a4 := abs_le.1 h4
    rw [abs_le]
    norm_num at a2 a4 ⊢
    constructor <;> linarith [a2.1, a2.2, a4.1, a4.2]

/-- The sign can be lost but not be wrong: a cell in front of the surface, for which the exact update is negative, gets no update at all. -/
theorem C92_ray_sign_lost : ∃ (c : RayConfig) (depth measured : ℚ), c.Scaled ∧ IsFloat depth ∧ IsFloat measured ∧ 0 < depth ∧ depth < measured ∧
    (∃ v, c.exact.distanceUpdate depth measured = some v ∧ v < 0) ∧ ∀ logF, IsLogSingle logF → c.distanceUpdate logF depth measured = some 0 := by
  have hc : (⟨1 / 8, 1 / 4, 1 / 2⟩ : RayConfig).Scaled :=
    ⟨by norm_num, ⟨by norm_num, by norm_num, 1, -2, by norm_num, by norm_num⟩, by norm_num, by norm_num⟩
  refine ⟨⟨1 / 8, 1 / 4, 1 / 2⟩, 1 / 2 ^ 10 - 1 / 2 ^ 32, 1 / 2 ^ 10, hc, ⟨2 ^ 22 - 1, -32, by norm_num, by norm_num⟩, ⟨1, -10, by norm_num, by norm_num⟩, by norm_num,
    by norm_num, ?_, fun logF hl => ?_⟩
  · have hs : (RayConfig.exact ⟨1 / 8, 1 / 4, 1 / 2⟩).Scaled := by
      unfold ContinuousRayConfig.Scaled ContinuousRayConfig.Valid RayConfig.exact; norm_num
    obtain ⟨u, h1, -, h2, -⟩ := C42_ray_beam_partial _ hs ((1 / 2 ^ 10 - 1 / 2 ^ 32 : ℚ) : ℝ) ((1 / 2 ^ 10 : ℚ) : ℝ)
    exact ⟨u, h1, h2.2 (by norm_num)⟩
  · have h1 : (⟨1 / 8, 1 / 4, 1 / 2⟩ : RayConfig).fullProbability (1 / 2 ^ 10 - 1 / 2 ^ 32) (1 / 2 ^ 10) = 1 / 2 := by decide +kernel
    unfold RayConfig.distanceUpdate
    rw [if_neg (by decide +kernel), if_neg (by decide +kernel)]
    unfold RayConfig.fullBeamUpdate
    rw [h1, logOdds_eq logF (by norm_num) (by norm_num), oddsOf_half, hl.one]

/-! ## The continuous beam -/

namespace SingleMeasurement

/-- The rounded contribution of the angle. -/
def angleS (sqrtF : ℚ → ℚ) (c : BeamConfig) (errSq : ℚ) : ℚ := fl (1 - cumulative (fl (fl (sqrtF errSq / c.angleSigma) - 3)))

/-- The exact contribution of the angle. -/
noncomputable def angleR (c : BeamConfig) (errSq : ℚ) : ℝ := 1 - gaussCumulative (Real.sqrt errSq / c.angleSigma - 3)

theorem angleS_range (sqrtF : ℚ → ℚ) (c : BeamConfig) (errSq : ℚ) : 0 ≤ angleS sqrtF c errSq ∧ angleS sqrtF c errSq ≤ 1 := by
  obtain ⟨h0, h1, -⟩ := cumulative_spec (fl (fl (sqrtF errSq / c.angleSigma) - 3))
  unfold angleS
  constructor
  · have := fl_mono (show 0 ≤ 1 - cumulative (fl (fl (sqrtF errSq / c.angleSigma) - 3)) by linarith)
    rwa [fl_zero] at this
  · have := fl_mono (show 1 - cumulative (fl (fl (sqrtF errSq / c.angleSigma) - 3)) ≤ 1 by linarith)
    rwa [fl_one] at this

theorem angleR_range (c : BeamConfig) (errSq : ℚ) : 0 ≤ angleR c errSq ∧ angleR c errSq ≤ 1 := by
  unfold angleR
  have := gauss_nonneg (Real.sqrt errSq / c.angleSigma - 3)
  have := gauss_le_one (Real.sqrt errSq / c.angleSigma - 3)
  constructor <;> linarith

theorem fl_errR (x : ℚ) : |((fl x : ℚ) : ℝ) - x| ≤ |(x : ℝ)| / 2 ^ 24 := by
  have := (Rat.cast_le (K := ℝ)).2 (fl_err x)
  push_cast at this
  exact this

theorem angle_err {sqrtF : ℚ → ℚ} (hs : IsSqrtSingle sqrtF) {c : BeamConfig} (ha : 0 < c.angleSigma) {errSq : ℚ} (he : 0 ≤ errSq) :
    |(angleS sqrtF c errSq : ℝ) - angleR c errSq| ≤ 17 / 2 ^ 24 := by
  have haR : (0 : ℝ) < c.angleSigma := by exact_mod_cast ha
  set g := Real.sqrt errSq / c.angleSigma with hg
  have g0 : 0 ≤ g := div_nonneg (Real.sqrt_nonneg _) haR.le
  have h1 : |((sqrtF errSq / c.angleSigma : ℚ) : ℝ) - g| ≤ g / 2 ^ 24 := by
    push_cast
    rw [hg, ← sub_div, abs_div, abs_of_pos haR, div_right_comm]
    exact div_le_div_of_nonneg_right (hs errSq he) haR.le
  have h2 := fl_errR (sqrtF errSq / c.angleSigma)
  set y : ℝ := ((sqrtF errSq / c.angleSigma : ℚ) : ℝ) with hy
  set G : ℚ := fl (sqrtF errSq / c.angleSigma) with hG
  have b1 := abs_le.1 h1
  have y0 : 0 ≤ y := by have := b1.1; norm_num at this; linarith
  rw [abs_of_nonneg y0] at h2
  have b2 := abs_le.1 h2
  have h3 : |(G : ℝ) - g| ≤ 21 / 10 * g / 2 ^ 24 := by
    rw [abs_le]
    norm_num at b1 b2 ⊢
    constructor <;> linarith [b1.1, b1.2, b2.1, b2.2]
  have b3 := abs_le.1 h3
  have eA : angleS sqrtF c errSq = fl (1 - cumulative (fl (G - 3))) := rfl
  have eR : angleR c errSq = 1 - gaussCumulative (g - 3) := rfl
  rw [eA, eR]
  rcases le_or_gt g 7 with h7 | h7
  · have h4 := fl_errR (G - 3)
    have h5 : |((G - 3 : ℚ) : ℝ)| ≤ 5 := by
      push_cast
      rw [abs_le]; norm_num at b3; constructor <;> linarith [b3.1, b3.2]
    have b4 := abs_le.1 (h4.trans (div_le_div_of_nonneg_right h5 (by norm_num)))
    push_cast at b4
    obtain ⟨c0, c1, -, -, c2⟩ := C92_cumulative (fl (G - 3))
    have h6 : |gaussCumulative (fl (G - 3) : ℚ) - gaussCumulative (g - 3)| ≤ 3 / 8 * |((fl (G - 3) : ℚ) : ℝ) - (g - 3)| := by
      rcases le_total ((fl (G - 3) : ℚ) : ℝ) (g - 3) with h | h
      · obtain ⟨s1, s2⟩ := gauss_slope h
        rw [abs_of_nonpos (by linarith), abs_of_nonpos (by linarith : ((fl (G - 3) : ℚ) : ℝ) - (g - 3) ≤ 0)]; linarith
      · obtain ⟨s1, s2⟩ := gauss_slope h
        rw [abs_of_nonneg (by linarith), abs_of_nonneg (by linarith : 0 ≤ ((fl (G - 3) : ℚ) : ℝ) - (g - 3))]; linarith
    have h8 : |((fl (G - 3) : ℚ) : ℝ) - (g - 3)| ≤ 20 / 2 ^ 24 := by
      rw [abs_le]
      norm_num at b3 b4 ⊢
      constructor <;> linarith [b3.1, b3.2, b4.1, b4.2]
    have b6 := abs_le.1 (h6.trans (mul_le_mul_of_nonneg_left h8 (by norm_num)))
    have h9 := fl_errR (1 - cumulative (fl (G - 3)))
    have h10 : |((1 - cumulative (fl (G - 3)) : ℚ) : ℝ)| ≤ 1 := by
      have c0R := (Rat.cast_le (K := ℝ)).2 c0
      have c1R := (Rat.cast_le (K := ℝ)).2 c1
      push_cast at c0R c1R ⊢
      rw [abs_le]; constructor <;> linarith
    have b9 := abs_le.1 (h9.trans (div_le_div_of_nonneg_right h10 (by norm_num)))
    have b2' := abs_le.1 c2
    rw [Rat.cast_sub, Rat.cast_one] at b9
    rw [abs_le]
    norm_num at b2' b6 b9 ⊢
    constructor <;> linarith [b2'.1, b2'.2, b6.1, b6.2, b9.1, b9.2]
  · have h4 : (6 : ℝ) ≤ G := by have := b3.1; norm_num at this; linarith
    have h5 : (6 : ℚ) ≤ G := by exact_mod_cast h4
    have h6 := fl_mono (show 3 ≤ G - 3 by linarith)
    rw [fl_three] at h6
    rw [cumulative_high h6, gauss_high (by linarith), sub_self, fl_zero]
    norm_num

/-- The rounded contribution of the range. -/
def rangeS (c : BeamConfig) (distance measured : ℚ) : ℚ :=
  if distance < fl (measured - c.thresholdFront) then -1 / 2 else Single.rangeContrib (fl (fl (distance - measured) / c.rangeSigma))

theorem rangeS_err {c : BeamConfig} (hc : c.Scaled) {distance : ℚ} (measured : ℚ) (hd : IsFloat distance) :
    |rangeS c distance measured - rangeQ ((distance - measured) / c.rangeSigma)| ≤ 40 / 2 ^ 24 := by
  unfold rangeS
  split
  · rename_i h
    rw [abs_sub_comm]
    exact (free_near hc.sigma.2 hd h).trans (by norm_num)
  · obtain ⟨T, hT, eT⟩ := offset_err distance measured c.rangeSigma
    rw [eT]
    exact rangeContrib_err _ hT

theorem rangeS_sign {c : BeamConfig} (hc : c.Scaled) (distance : ℚ) {measured : ℚ} (hm : IsFloat measured) :
    -1 / 2 ≤ rangeS c distance measured ∧ (distance ≤ measured → rangeS c distance measured ≤ 0) ∧ (measured ≤ distance → 0 ≤ rangeS c distance measured) := by
  obtain ⟨T, hT, eT⟩ := offset_err distance measured c.rangeSigma
  unfold rangeS
  split
  · rename_i h
    refine ⟨le_rfl, fun _ => by norm_num, fun h2 => ?_⟩
    have h3 : measured - c.thresholdFront ≤ measured := by
      have := fl_mono (show (0 : ℚ) ≤ 3 * c.rangeSigma by have := hc.sigma.2; linarith)
      rw [fl_zero] at this
      unfold BeamConfig.thresholdFront
      linarith
    have h4 := fl_mono h3
    rw [fl_of_isFloat hm] at h4
    linarith
  · rw [eT]
    refine ⟨rangeContrib_ge _, fun h => rangeContrib_nonpos ?_, fun h => rangeContrib_nonneg ?_⟩
    · exact mul_nonpos_of_nonpos_of_nonneg (div_nonpos_of_nonpos_of_nonneg (by linarith) hc.sigma.2.le) hT.pos.le
    · exact mul_nonneg (div_nonneg (by linarith) hc.sigma.2.le) hT.pos.le

/-- The rounded contribution. -/
def contribS (sqrtF : ℚ → ℚ) (c : BeamConfig) (distance errSq measured : ℚ) : ℚ := fl (rangeS c distance measured * angleS sqrtF c errSq)

theorem beam_probability (sqrtF : ℚ → ℚ) (c : BeamConfig) (distance errSq measured : ℚ) :
    c.probability sqrtF distance errSq measured = probOf c.scalingFree c.scalingOccupied (contribS sqrtF c distance errSq measured) := by
  unfold probOf
  by_cases h : distance < fl (measured - c.thresholdFront)
  · have e : contribS sqrtF c distance errSq measured = fl (-1 / 2 * angleS sqrtF c errSq) := by
      unfold contribS rangeS; rw [if_pos h]
    have h0 : contribS sqrtF c distance errSq measured ≤ 0 := by
      rw [e]
      have := fl_mono (show -1 / 2 * angleS sqrtF c errSq ≤ 0 by have := (angleS_range sqrtF c errSq).1; linarith)
      rwa [fl_zero] at this
    have e2 : c.probability sqrtF distance errSq measured = fl (fl (c.scalingFree * fl (-1 / 2 * angleS sqrtF c errSq)) + 1 / 2) := by
      unfold BeamConfig.probability
      dsimp only
      rw [if_pos (Or.inl h), if_pos h]
      rfl
    rw [e2, ← e]
    rcases lt_or_eq_of_le h0 with h1 | h1
    · rw [if_pos h1]
    · rw [h1]; norm_num
  · have e : contribS sqrtF c distance errSq measured
        = fl (Single.rangeContrib (fl (fl (distance - measured) / c.rangeSigma)) * angleS sqrtF c errSq) := by
      unfold contribS rangeS; rw [if_neg h]
    rw [e]
    unfold BeamConfig.probability
    dsimp only
    rw [if_neg h]
    simp only [h, false_or]
    rfl

theorem contribS_range {sqrtF : ℚ → ℚ} {c : BeamConfig} (hc : c.Scaled) (distance errSq : ℚ) {measured : ℚ} (hd : IsFloat distance) (hm : IsFloat measured) :
    -1 / 2 ≤ contribS sqrtF c distance errSq measured ∧ contribS sqrtF c distance errSq measured ≤ 94 / 200 ∧
    (distance ≤ measured → contribS sqrtF c distance errSq measured ≤ 0) ∧ (measured ≤ distance → 0 ≤ contribS sqrtF c distance errSq measured) := by
  obtain ⟨a0, a1⟩ := angleS_range sqrtF c errSq
  obtain ⟨r0, r1, r2⟩ := rangeS_sign hc distance hm
  have r3 := abs_le.1 (rangeS_err hc measured hd)
  have r4 := rangeQ_le ((distance - measured) / c.rangeSigma)
  have r5 : rangeS c distance measured ≤ 4651 / 10000 := by have := r3.2; norm_num at this; linarith
  unfold contribS
  generalize rangeS c distance measured = r at *
  generalize angleS sqrtF c errSq = a at *
  have hra : -1 / 2 ≤ r * a ∧ r * a ≤ 4651 / 10000 := by
    constructor
    · nlinarith [mul_nonneg (by linarith : 0 ≤ r + 1 / 2) a0]
    · nlinarith [mul_nonneg (by linarith : 0 ≤ 4651 / 10000 - r) a0]
  refine ⟨?_, ?_, fun h => ?_, fun h => ?_⟩
  · have := fl_mono hra.1
    rwa [fl_negHalf] at this
  · have h1 := abs_le.1 (fl_err (r * a))
    have h2 : |r * a| ≤ 1 := by rw [abs_le]; constructor <;> linarith [hra.1, hra.2]
    have := h1.2
    norm_num at this ⊢
    linarith [hra.2]
  · have := fl_mono (mul_nonpos_of_nonpos_of_nonneg (r1 h) a0)
    rwa [fl_zero] at this
  · have := fl_mono (mul_nonneg (r2 h) a0)
    rwa [fl_zero] at this

/-- The exact contribution. -/
noncomputable def contribR (c : BeamConfig) (distance errSq measured : ℚ) : ℝ := (rangeQ ((distance - measured) / c.rangeSigma) : ℚ) * angleR c errSq

/-- The exact probability. -/
noncomputable def beamQ (c : BeamConfig) (distance errSq measured : ℚ) : ℝ := scaleR c.scalingFree c.scalingOccupied (contribR c distance errSq measured) + 1 / 2

theorem contribR_range (c : BeamConfig) (distance errSq measured : ℚ) : -1 / 2 ≤ contribR c distance errSq measured ∧ contribR c distance errSq measured ≤ 93 / 200 := by
  have a := (Rat.cast_le (K := ℝ)).2 (rangeQ_ge ((distance - measured) / c.rangeSigma))
  have b := (Rat.cast_le (K := ℝ)).2 (rangeQ_le ((distance - measured) / c.rangeSigma))
  obtain ⟨a0, a1⟩ := angleR_range c errSq
  unfold contribR
  push_cast at a b
  generalize ((rangeQ ((distance - measured) / c.rangeSigma) : ℚ) : ℝ) = r at *
  generalize angleR c errSq = s at *
  constructor
  · nlinarith [mul_nonneg (by linarith : 0 ≤ r + 1 / 2) a0]
  · nlinarith [mul_nonneg (by linarith : 0 ≤ 93 / 200 - r) a0]

theorem beamQ_range {c : BeamConfig} (hc : c.Scaled) (distance errSq measured : ℚ) :
    (1 - (c.scalingFree : ℝ)) / 2 ≤ beamQ c distance errSq measured ∧ beamQ c distance errSq measured ≤ 193 / 200 := by
  obtain ⟨-, ⟨f0, f1, -⟩, o0, o1⟩ := hc
  obtain ⟨a, b⟩ := contribR_range c distance errSq measured
  obtain ⟨h1, h2⟩ := scaleR_range (free := c.scalingFree) (occ := c.scalingOccupied) (by exact_mod_cast f0.le) (by exact_mod_cast o0.le) (by exact_mod_cast o1) a b
  unfold beamQ
  constructor <;> linarith

theorem scaleR_zero (a b : ℝ) : scaleR a b 0 = 0 := by unfold scaleR; norm_num

theorem beam_exact {c : BeamConfig} (hc : c.Scaled) (distance errSq measured : ℚ) :
    c.exact.beamUpdate distance errSq measured = some (Real.log (beamQ c distance errSq measured / (1 - beamQ c distance errSq measured))) := by
  obtain ⟨q0, q1⟩ := beamQ_range hc distance errSq measured
  obtain ⟨⟨ha, hs⟩, ⟨f0, f1, -⟩, o0, o1⟩ := hc
  have haR : (0 : ℝ) < c.angleSigma := by exact_mod_cast ha
  have f1R : (c.scalingFree : ℝ) < 1 := by exact_mod_cast f1
  have hpos : 0 < beamQ c distance errSq measured := by linarith
  unfold ContinuousBeamConfig.beamUpdate ContinuousBeamConfig.thresholdBack ContinuousBeamConfig.thresholdFront ContinuousBeamConfig.angleThreshold BeamConfig.exact
  dsimp only
  split
  · rename_i h
    have hz : contribR c distance errSq measured = 0 := by
      unfold contribR
      rcases h with h | h
      · have h1 : 6 * (c.angleSigma : ℝ) ≤ Real.sqrt errSq := Real.le_sqrt_of_sq_le (by nlinarith)
        have : angleR c errSq = 0 := by
          unfold angleR
          rw [gauss_high (by rw [le_sub_iff_add_le, le_div_iff₀ haR]; linarith), sub_self]
        rw [this, mul_zero]
      · have h' : measured + 6 * c.rangeSigma < distance := by exact_mod_cast h
        rw [rangeQ_high (by rw [le_div_iff₀ hs]; linarith)]
        norm_num
    unfold beamQ
    rw [hz, scaleR_zero]
    norm_num
  · have e : (((distance : ℝ) - measured) / c.rangeSigma) = (((distance - measured) / c.rangeSigma : ℚ) : ℝ) := by push_cast; rfl
    rw [e, ← rangeQ_cast]
    have hA : 1 - gaussCumulative (Real.sqrt errSq / c.angleSigma - 3) = angleR c errSq := rfl
    rw [hA]
    have key : ((if (distance : ℝ) < measured - 3 * c.rangeSigma then (-1 / 2 : ℝ) else ((rangeQ ((distance - measured) / c.rangeSigma) : ℚ) : ℝ)) * angleR c errSq)
        = contribR c distance errSq measured := by
      unfold contribR
      split
      · rename_i h
        have h' : distance < measured - 3 * c.rangeSigma := by exact_mod_cast h
        rw [rangeQ_low (show (distance - measured) / c.rangeSigma ≤ -3 by rw [div_le_iff₀ hs]; linarith)]
        push_cast; rfl
      · rfl
    rw [key]
    have key2 : (if (distance : ℝ) < measured - 3 * c.rangeSigma ∨ contribR c distance errSq measured < 0 then (c.scalingFree : ℝ) * contribR c distance errSq measured
        else c.scalingOccupied * contribR c distance errSq measured) = scaleR c.scalingFree c.scalingOccupied (contribR c distance errSq measured) := by
      unfold scaleR
      by_cases h0 : contribR c distance errSq measured < 0
      · rw [if_pos (Or.inr h0), if_pos h0]
      · rw [if_neg h0]
        split
        · rename_i h
          have h1 := h.resolve_right h0
          have h' : distance < measured - 3 * c.rangeSigma := by exact_mod_cast h1
          have hle : contribR c distance errSq measured ≤ 0 := by
            unfold contribR
            rw [rangeQ_low (show (distance - measured) / c.rangeSigma ≤ -3 by rw [div_le_iff₀ hs]; linarith)]
            have := (angleR_range c errSq).1
            push_cast; linarith
          have : contribR c distance errSq measured = 0 := by linarith
          rw [this, mul_zero, mul_zero]
        · rfl
    rw [key2]
    unfold logOddsUpdate
    have e3 : scaleR c.scalingFree c.scalingOccupied (contribR c distance errSq measured) + 1 / 2 = beamQ c distance errSq measured := rfl
    rw [e3, if_pos ⟨hpos, by linarith⟩]

end SingleMeasurement

/-- The rounded update of a cell by a beam is finite, is never below the one of free space, is not positive in front of the measured surface and not negative behind it. -/
theorem C92_beam (logF : ℚ → ℚ) (hl : IsLogSingle logF) (sqrtF : ℚ → ℚ) (c : BeamConfig) (hc : c.Scaled) (distance errSq measured : ℚ) (hd : IsFloat distance)
    (hm : IsFloat measured) :
    ∃ u free, c.beamUpdate logF sqrtF distance errSq measured = some u ∧
      RayConfig.freeSpaceUpdate logF ⟨c.rangeSigma, c.scalingFree, c.scalingOccupied⟩ = some free ∧ free ≤ u ∧
      (distance ≤ measured → u ≤ 0) ∧ (measured ≤ distance → 0 ≤ u) := by
  obtain ⟨f0, f1, ff⟩ := hc.free
  obtain ⟨g0, -, g2⟩ := freeProb ff f0.le f1
  have hfree : RayConfig.freeSpaceUpdate logF ⟨c.rangeSigma, c.scalingFree, c.scalingOccupied⟩ = some (logF (oddsOf (fl (fl (-1 / 2 * c.scalingFree) + 1 / 2)))) :=
    logOdds_eq logF g0 (lt_of_le_of_lt g2 (by norm_num))
  have hneg : logF (oddsOf (fl (fl (-1 / 2 * c.scalingFree) + 1 / 2))) ≤ 0 := by
    have := hl.mono _ _ (oddsOf_pos g0 (by linarith)) (oddsOf_mono g0 g2 (by norm_num))
    rwa [oddsOf_half, hl.one] at this
  unfold BeamConfig.beamUpdate
  split
  · exact ⟨0, _, rfl, hfree, hneg, fun _ => le_rfl, fun _ => le_rfl⟩
  · obtain ⟨c0, c1, c2, c3⟩ := contribS_range (sqrtF := sqrtF) hc distance errSq hd hm
    obtain ⟨-, p1, p2, p3, p4⟩ := probOf_spec f0.le f1.le hc.occupied.1.le hc.occupied.2 c0 c1
    rw [← beam_probability] at p1 p2 p3 p4
    have p0 : 0 < c.probability sqrtF distance errSq measured := lt_of_lt_of_le g0 p1
    refine ⟨_, _, logOdds_eq logF p0 (by linarith), hfree, hl.mono _ _ (oddsOf_pos g0 (by linarith)) (oddsOf_mono g0 p1 (by linarith)), fun h => ?_, fun h => ?_⟩
    · have := hl.mono _ _ (oddsOf_pos p0 (by linarith)) (oddsOf_mono p0 (p3 (c2 h)) (by norm_num))
      rwa [oddsOf_half, hl.one] at this
    · have := hl.mono _ _ (oddsOf_pos (by norm_num) (by norm_num)) (oddsOf_mono (by norm_num) (p4 (c3 h)) (by linarith))
      rwa [oddsOf_half, hl.one] at this

/-- The rounded update of a cell by a beam and the exact one differ by at most `2 ^ -12 / (1 - scaling_free)`, wherever the cell is. -/
theorem C92_beam_error (logF : ℚ → ℚ) (hl : IsLogSingle logF) (sqrtF : ℚ → ℚ) (hq : IsSqrtSingle sqrtF) (c : BeamConfig) (hc : c.Scaled)
    (distance errSq measured : ℚ) (he : 0 ≤ errSq) (hd : IsFloat distance) (hm : IsFloat measured) (hE : IsFloat errSq) :
    ∃ (u : ℚ) (v : ℝ), c.beamUpdate logF sqrtF distance errSq measured = some u ∧ c.exact.beamUpdate distance errSq measured = some v ∧
      |(u : ℝ) - v| ≤ 1 / 2 ^ 12 / (1 - c.scalingFree) := by
  obtain ⟨f0, f1, ff⟩ := hc.free
  obtain ⟨g0, g1, g2⟩ := freeProb ff f0.le f1
  obtain ⟨q0, q1⟩ := beamQ_range hc distance errSq measured
  have f1R : (c.scalingFree : ℝ) < 1 := by exact_mod_cast f1
  have hw : 0 < 1 - c.scalingFree := by linarith
  have hw1 : 1 - c.scalingFree ≤ 1 := by linarith
  have ew : (((1 - c.scalingFree : ℚ)) : ℝ) = 1 - c.scalingFree := by push_cast; rfl
  have qr : (((1 - c.scalingFree : ℚ)) : ℝ) / 2 * (1 - 1 / 2 ^ 24) ≤ beamQ c distance errSq measured := by
    rw [ew]; norm_num; linarith
  have main : ∀ p : ℚ, (1 - c.scalingFree) / 2 * (1 - 1 / 2 ^ 24) ≤ p → p ≤ 971 / 1000 → |(p : ℝ) - beamQ c distance errSq measured| ≤ 60 / 2 ^ 24 →
      |(logF (oddsOf p) : ℝ) - Real.log (beamQ c distance errSq measured / (1 - beamQ c distance errSq measured))| ≤ 1 / 2 ^ 12 / (1 - c.scalingFree) := by
    intro p h1 h2 h3
    have := update_err hl hw hw1 h1 h2 qr (by linarith) h3
    rwa [ew] at this
  rw [beam_exact hc]
  have scale : ∀ (r : ℝ), |scaleR c.scalingFree c.scalingOccupied r + 1 / 2 - beamQ c distance errSq measured| ≤ |r - contribR c distance errSq measured| := by
    intro r
    unfold beamQ
    rw [add_sub_add_right_eq_sub]
    exact scaleR_lip (by exact_mod_cast f0.le) f1R.le (by exact_mod_cast hc.occupied.1.le) (by exact_mod_cast hc.occupied.2) _ _
  have rq0 := (Rat.cast_le (K := ℝ)).2 (rangeQ_ge ((distance - measured) / c.rangeSigma))
  have rq1 := (Rat.cast_le (K := ℝ)).2 (rangeQ_le ((distance - measured) / c.rangeSigma))
  push_cast at rq0 rq1
  obtain ⟨ar0, ar1⟩ := angleR_range c errSq
  unfold BeamConfig.beamUpdate
  split
  · rename_i h
    refine ⟨0, _, rfl, rfl, ?_⟩
    have hz : |contribR c distance errSq measured| ≤ 4 / 2 ^ 24 := by
      rcases h with h | h
      · have h1 := lt_of_fl_lt hE h
        have h2 := (fl_pos_near (x := 6 * c.angleSigma) (by linarith [hc.sigma.1])).1
        have haR : (0 : ℝ) < c.angleSigma := by exact_mod_cast hc.sigma.1
        have h1R := (Rat.cast_lt (K := ℝ)).2 h1
        have h2R := (Rat.cast_le (K := ℝ)).2 h2
        push_cast at h1R h2R
        have h3 : ((fl (6 * c.angleSigma) : ℚ) : ℝ) ≤ Real.sqrt errSq := Real.le_sqrt_of_sq_le (by rw [sq]; exact h1R.le)
        have h4 : 3 - 6 / 2 ^ 24 ≤ Real.sqrt errSq / c.angleSigma - 3 := by
          rw [le_sub_iff_add_le, le_div_iff₀ haR]
          norm_num at h2R ⊢
          linarith
        have h5 : angleR c errSq ≤ 3 / 8 * (6 / 2 ^ 24) := by
          unfold angleR
          obtain ⟨s1, -⟩ := gauss_slope h4
          obtain ⟨-, s2⟩ := gauss_slope (s := (3 - 6 / 2 ^ 24 : ℝ)) (t := 3) (by norm_num)
          rw [gauss_high le_rfl] at s2
          norm_num at s1 s2 ⊢
          linarith
        unfold contribR
        rw [abs_mul, abs_of_nonneg ar0]
        have h6 : |((rangeQ ((distance - measured) / c.rangeSigma) : ℚ) : ℝ)| ≤ 1 := by rw [abs_le]; constructor <;> linarith
        calc _ ≤ 1 * (3 / 8 * (6 / 2 ^ 24)) := mul_le_mul h6 h5 ar0 (by norm_num)
          _ ≤ _ := by norm_num
      · have h1 := lt_of_fl_lt hd h
        have h2 := (fl_pos_near (x := 6 * c.rangeSigma) (by linarith [hc.sigma.2])).1
        unfold BeamConfig.thresholdBack at h1
        have h3 : 6 - 6 / 2 ^ 24 ≤ (distance - measured) / c.rangeSigma := by
          rw [le_div_iff₀ hc.sigma.2]
          norm_num at h2 ⊢
          linarith
        have h4 : |rangeQ ((distance - measured) / c.rangeSigma)| ≤ 4 / 2 ^ 24 := by
          rcases le_total 6 ((distance - measured) / c.rangeSigma) with h6 | h6
          · rw [rangeQ_high h6]; norm_num
          · have h5 := rangeQ_lip ((distance - measured) / c.rangeSigma) 6
            rw [rangeQ_high le_rfl, sub_zero] at h5
            refine h5.trans ?_
            rw [abs_of_nonpos (by linarith)]
            norm_num at h3 ⊢
            linarith
        have h5 := (Rat.cast_le (K := ℝ)).2 h4
        push_cast at h5
        unfold contribR
        rw [abs_mul, abs_of_nonneg ar0]
        calc _ ≤ 4 / 2 ^ 24 * 1 := mul_le_mul h5 ar1 ar0 (by norm_num)
          _ = _ := by norm_num
    have h1 := scale 0
    rw [scaleR_zero, zero_sub, abs_neg] at h1
    have h2 := main (1 / 2) (by norm_num; linarith) (by norm_num) (by push_cast; rw [zero_add] at h1; exact (h1.trans hz).trans (by norm_num))
    rwa [oddsOf_half, hl.one] at h2
  · obtain ⟨c0, c1, -, -⟩ := contribS_range (sqrtF := sqrtF) hc distance errSq hd hm
    obtain ⟨p5, p1, p2, -, -⟩ := probOf_spec f0.le f1.le hc.occupied.1.le hc.occupied.2 c0 c1
    rw [← beam_probability] at p1 p2 p5
    refine ⟨_, _, logOdds_eq logF (lt_of_lt_of_le g0 p1) (by linarith), rfl, main _ (g1.trans p1) p2 ?_⟩
    have h1 := scale ((contribS sqrtF c distance errSq measured : ℚ) : ℝ)
    rw [← scaleQ_cast] at h1
    have h4 := (Rat.cast_le (K := ℝ)).2 p5
    rw [Rat.cast_abs, Rat.cast_sub] at h4
    push_cast at h4
    have hr := (Rat.cast_le (K := ℝ)).2 (rangeS_err hc measured hd)
    rw [Rat.cast_abs, Rat.cast_sub] at hr
    push_cast at hr
    have ha := angle_err hq hc.sigma.1 he
    obtain ⟨as0, as1⟩ := angleS_range sqrtF c errSq
    have as0R := (Rat.cast_le (K := ℝ)).2 as0
    have as1R := (Rat.cast_le (K := ℝ)).2 as1
    push_cast at as0R as1R
    have hf := fl_errR (rangeS c distance measured * angleS sqrtF c errSq)
    have hprod : |((rangeS c distance measured * angleS sqrtF c errSq : ℚ) : ℝ) - contribR c distance errSq measured| ≤ 49 / 2 ^ 24 := by
      unfold contribR
      push_cast
      generalize ((rangeQ ((distance - measured) / c.rangeSigma) : ℚ) : ℝ) = rq at *
      generalize ((rangeS c distance measured : ℚ) : ℝ) = rs at *
      generalize ((angleS sqrtF c errSq : ℚ) : ℝ) = as at *
      generalize angleR c errSq = ar at *
      have e : rs * as - rq * ar = (rs - rq) * as + rq * (as - ar) := by ring
      rw [e]
      refine (abs_add_le _ _).trans ?_
      rw [abs_mul, abs_mul, abs_of_nonneg as0R]
      have hq2 : |rq| ≤ 1 / 2 := by rw [abs_le]; constructor <;> linarith
      have x1 : |rs - rq| * as ≤ 40 / 2 ^ 24 * 1 := mul_le_mul hr as1R as0R (by norm_num)
      have x2 : |rq| * |as - ar| ≤ 1 / 2 * (17 / 2 ^ 24) := mul_le_mul hq2 ha (abs_nonneg _) (by norm_num)
      norm_num at x1 x2 ⊢
      linarith
    have hb : |((rangeS c distance measured * angleS sqrtF c errSq : ℚ) : ℝ)| ≤ 1 := by
      obtain ⟨k0, k1⟩ := contribR_range c distance errSq measured
      have := abs_le.1 hprod
      rw [abs_le]; norm_num at this ⊢; constructor <;> linarith [this.1, this.2]
    have hf' := abs_le.1 (hf.trans (div_le_div_of_nonneg_right hb (by norm_num)))
    have hp' := abs_le.1 hprod
    have h5 : |((contribS sqrtF c distance errSq measured : ℚ) : ℝ) - contribR c distance errSq measured| ≤ 50 / 2 ^ 24 := by
      unfold contribS
      rw [abs_le]
      norm_num at hf' hp' ⊢
      constructor <;> linarith [hf'.1, hf'.2, hp'.1, hp'.2]
    have a1 := abs_le.1 (h1.trans h5)
    have a4 := abs_le.1 h4
    rw [abs_le]
    norm_num at a1 a4 ⊢
    constructor <;> linarith [a1.1, a1.2, a4.1, a4.2]

/-! ## Examples -/

namespace SingleMeasurement

/-- A rational number just below a positive real number. -/
noncomputable def below (y : ℝ) : ℚ := (1 + 1 / 2 ^ 24) ^ ⌊Real.logb (1 + 1 / 2 ^ 24) y⌋

theorem below_spec {y : ℝ} (hy : 0 < y) : (below y : ℝ) ≤ y ∧ y ≤ below y * (1 + 1 / 2 ^ 24) ∧ (0 : ℝ) < below y := by
  have hb : (1 : ℝ) < 1 + 1 / 2 ^ 24 := by norm_num
  have e : (below y : ℝ) = (1 + 1 / 2 ^ 24 : ℝ) ^ ((⌊Real.logb (1 + 1 / 2 ^ 24) y⌋ : ℤ) : ℝ) := by
    unfold below
    push_cast
    rw [Real.rpow_intCast]
  have ey : (1 + 1 / 2 ^ 24 : ℝ) ^ (Real.logb (1 + 1 / 2 ^ 24) y) = y := Real.rpow_logb (by linarith) hb.ne' hy
  rw [e]
  refine ⟨?_, ?_, Real.rpow_pos_of_pos (by linarith) _⟩
  · conv_rhs => rw [← ey]
    exact Real.rpow_le_rpow_of_exponent_le hb.le (Int.floor_le _)
  · conv_lhs => rw [← ey]
    rw [← Real.rpow_add_one (by linarith)]
    exact Real.rpow_le_rpow_of_exponent_le hb.le (Int.lt_floor_add_one _).le

theorem below_mono {x y : ℝ} (hx : 0 < x) (h : x ≤ y) : below x ≤ below y := by
  unfold below
  refine zpow_le_zpow_right₀ (by norm_num) (Int.floor_le_floor ?_)
  exact Real.logb_le_logb_of_le (by norm_num) hx h

theorem below_err {y : ℝ} (hy : 0 < y) : |(below y : ℝ) - y| ≤ y / 2 ^ 24 := by
  obtain ⟨h1, h2, h3⟩ := below_spec hy
  rw [abs_le]
  norm_num at h2 ⊢
  constructor <;> linarith

/-- A logarithm that meets the assumptions. -/
noncomputable def exampleLog (x : ℚ) : ℚ := if x = 1 then 0 else if 1 < x then below (Real.log x) else -below (-Real.log x)

theorem exampleLog_ok : IsLogSingle exampleLog := by
  have pos : ∀ x : ℚ, 1 < x → 0 < Real.log x := fun x h => Real.log_pos (by exact_mod_cast h)
  have neg : ∀ x : ℚ, 0 < x → x < 1 → 0 < -Real.log x := fun x h h2 => by
    have := Real.log_neg (x := (x : ℝ)) (by exact_mod_cast h) (by exact_mod_cast h2)
    linarith
  have bp : ∀ y : ℝ, 0 < y → 0 < below y := fun y hy => by exact_mod_cast (below_spec hy).2.2
  refine ⟨fun x y hx h => ?_, by simp [exampleLog], fun x hx => ?_⟩
  · have hlog : Real.log x ≤ Real.log y := Real.log_le_log (by exact_mod_cast hx) (by exact_mod_cast h)
    unfold exampleLog
    rcases lt_trichotomy x 1 with h1 | h1 | h1
    · rw [if_neg h1.ne, if_neg (by linarith)]
      have b1 := bp _ (neg x hx h1)
      rcases lt_trichotomy y 1 with h2 | h2 | h2
      · rw [if_neg h2.ne, if_neg (by linarith)]
        have := below_mono (neg y (by linarith) h2) (neg_le_neg hlog)
        linarith
      · rw [if_pos h2]; linarith
      · rw [if_neg h2.ne', if_pos h2]
        have := bp _ (pos y h2)
        linarith
    · rw [if_pos h1]
      rcases lt_or_eq_of_le (h1 ▸ h) with h2 | h2
      · rw [if_neg h2.ne', if_pos h2]; exact (bp _ (pos y h2)).le
      · rw [if_pos h2.symm]
    · rw [if_neg h1.ne', if_pos h1, if_neg (by linarith), if_pos (by linarith)]
      exact below_mono (pos x h1) hlog
  · unfold exampleLog
    rcases lt_trichotomy x 1 with h1 | h1 | h1
    · rw [if_neg h1.ne, if_neg (by linarith)]
      have h2 := below_err (neg x hx h1)
      have h3 := neg x hx h1
      rw [abs_of_neg (by linarith : Real.log x < 0)]
      push_cast
      have e : |-(below (-Real.log x) : ℝ) - Real.log x| = |(below (-Real.log x) : ℝ) - -Real.log x| := by
        rw [← abs_neg]; congr 1; ring
      rw [e]
      refine h2.trans (div_le_div_of_nonneg_left h3.le (by norm_num) (by norm_num))
    · subst h1; norm_num
    · rw [if_neg h1.ne', if_pos h1, abs_of_pos (pos x h1)]
      exact (below_err (pos x h1)).trans (div_le_div_of_nonneg_left (pos x h1).le (by norm_num) (by norm_num))

/-- A square root that meets the assumptions. -/
noncomputable def exampleSqrt (x : ℚ) : ℚ := if x = 0 then 0 else below (Real.sqrt x)

theorem exampleSqrt_ok : IsSqrtSingle exampleSqrt := by
  intro x hx
  unfold exampleSqrt
  split
  · rename_i h; subst h; norm_num
  · rename_i h
    exact below_err (Real.sqrt_pos.2 (by exact_mod_cast lt_of_le_of_ne hx (Ne.symm h)))

end SingleMeasurement

/-- The configuration of a ray with weights `1/4` and `1/2`, and a cell slightly in front of the surface. -/
example : ∃ u free, (⟨1 / 8, 1 / 4, 1 / 2⟩ : RayConfig).distanceUpdate exampleLog (5 - 1 / 16) 5 = some u ∧
    (⟨1 / 8, 1 / 4, 1 / 2⟩ : RayConfig).freeSpaceUpdate exampleLog = some free ∧ free ≤ u ∧ u ≤ 0 := by
  obtain ⟨u, free, h1, h2, h3, -, h4, -⟩ := C92_ray exampleLog exampleLog_ok ⟨1 / 8, 1 / 4, 1 / 2⟩
    ⟨by norm_num, ⟨by norm_num, by norm_num, 1, -2, by norm_num, by norm_num⟩, by norm_num, by norm_num⟩ (5 - 1 / 16) 5 ⟨5, 0, by norm_num, by norm_num⟩
  exact ⟨u, free, h1, h2, h3, h4 (by norm_num)⟩

example : ∃ (u : ℚ) (v : ℝ), (⟨1 / 8, 1 / 4, 1 / 2⟩ : RayConfig).distanceUpdate exampleLog (81 / 16) 5 = some u ∧
    (⟨1 / 8, 1 / 4, 1 / 2⟩ : RayConfig).exact.distanceUpdate (81 / 16 : ℚ) (5 : ℚ) = some v ∧ |(u : ℝ) - v| ≤ 1 / 2 ^ 11 := by
  obtain ⟨u, v, h1, h2, h3⟩ := C92_ray_error exampleLog exampleLog_ok ⟨1 / 8, 1 / 4, 1 / 2⟩
    ⟨by norm_num, ⟨by norm_num, by norm_num, 1, -2, by norm_num, by norm_num⟩, by norm_num, by norm_num⟩ (81 / 16) 5 ⟨81, -4, by norm_num, by norm_num⟩
  exact ⟨u, v, h1, h2, h3.trans (by norm_num)⟩

/-- A cell behind the surface is seen as occupied: the rounded probability is well above one half. -/
example : 6 / 10 < (⟨1 / 8, 1 / 4, 1 / 2⟩ : RayConfig).fullProbability (41 / 8) 5 := by decide +kernel

example : ∃ u free, (⟨1 / 64, 1 / 8, 1 / 4, 1 / 2⟩ : BeamConfig).beamUpdate exampleLog exampleSqrt (81 / 16) (1 / 4096) 5 = some u ∧
    RayConfig.freeSpaceUpdate exampleLog ⟨1 / 8, 1 / 4, 1 / 2⟩ = some free ∧ free ≤ u ∧ 0 ≤ u := by
  obtain ⟨u, free, h1, h2, h3, -, h4⟩ := C92_beam exampleLog exampleLog_ok exampleSqrt ⟨1 / 64, 1 / 8, 1 / 4, 1 / 2⟩
    ⟨⟨by norm_num, by norm_num⟩, ⟨by norm_num, by norm_num, 1, -2, by norm_num, by norm_num⟩, by norm_num, by norm_num⟩ (81 / 16) (1 / 4096) 5
    ⟨81, -4, by norm_num, by norm_num⟩ ⟨5, 0, by norm_num, by norm_num⟩
  exact ⟨u, free, h1, h2, h3, h4 (by norm_num)⟩

example : ∃ (u : ℚ) (v : ℝ), (⟨1 / 64, 1 / 8, 1 / 4, 1 / 2⟩ : BeamConfig).beamUpdate exampleLog exampleSqrt (81 / 16) (1 / 4096) 5 = some u ∧
    (⟨1 / 64, 1 / 8, 1 / 4, 1 / 2⟩ : BeamConfig).exact.beamUpdate (81 / 16 : ℚ) (1 / 4096 : ℚ) (5 : ℚ) = some v ∧ |(u : ℝ) - v| ≤ 1 / 2 ^ 11 := by
  obtain ⟨u, v, h1, h2, h3⟩ := C92_beam_error exampleLog exampleLog_ok exampleSqrt exampleSqrt_ok ⟨1 / 64, 1 / 8, 1 / 4, 1 / 2⟩
    ⟨⟨by norm_num, by norm_num⟩, ⟨by norm_num, by norm_num, 1, -2, by norm_num, by norm_num⟩, by norm_num, by norm_num⟩ (81 / 16) (1 / 4096) 5
    (by norm_num) ⟨81, -4, by norm_num, by norm_num⟩ ⟨5, 0, by norm_num, by norm_num⟩ ⟨1, -12, by norm_num, by norm_num⟩
  exact ⟨u, v, h1, h2, h3.trans (by norm_num)⟩

end Wavemap
