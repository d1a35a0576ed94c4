import Verif.Model.LidarProjectors
import Verif.Lemmas.PolyBound
import Verif.Props.Projectors
import Mathlib.Analysis.SpecialFunctions.Complex.Arg
import Mathlib.Analysis.InnerProductSpace.PiL2
/-!
# C70: lidar projections

The direction of a point is given by its angle `θ` with `x = r cos θ`, `y = r sin θ`.
-/
namespace Wavemap
open PolyBound
noncomputable section

/-! ## Specification -/

/-- `approximate::atan2::kWorstCaseError` (approximate_trigonometry.h:44). -/
def worstCaseError : ℝ := 1908 / 1000000000

/-- Euclidean distance. -/
def dist3 (p q : Vec3) : ℝ := Real.sqrt ((p 0 - q 0) ^ 2 + (p 1 - q 1) ^ 2 + (p 2 - q 2) ^ 2)

/-- Rows of a rotation matrix: the frame is orthonormal. -/
def IsRotation (R : Fin 3 → Vec3) : Prop :=
  ∀ j k, R 0 j * R 0 k + R 1 j * R 1 k + R 2 j * R 2 k = if j = k then 1 else 0

/-- The columns of an image whose pixels are `pixelAngle` apart go all the way round. -/
def FullCircle (lo hi : ℝ) (cells : Int) : Prop := 2 * Real.pi ≤ hi - lo + pixelAngle lo hi cells

/-- A configuration of one angular axis that passes `CircularProjectorConfig::isValid` (circular_projector.cc:9-24). -/
def ValidAxis (lo hi : ℝ) (cells : Int) : Prop :=
  -Real.pi ≤ lo ∧ lo ≤ Real.pi ∧ -Real.pi ≤ hi ∧ hi ≤ Real.pi ∧ lo < hi ∧ 1 < cells

/-! ## The arc tangent -/

/-- The polynomial minus the one close to the arc tangent. -/
def atanError : List ℚ :=
  add [0, 99997726 / 100000000, 0, -33262347 / 100000000, 0, 19354346 / 100000000, 0, -11643287 / 100000000, 0, 5265332 / 100000000, 0,
    -1172120 / 100000000] (smul (-1) arctanPoly)

theorem atanError_bounded : boundedOn atanError (1908 / 1000000000 - 1 / 768398401)
    [0, 1/16, 9/80, 13/80, 9/40, 23/80, 27/80, 31/80, 9/20, 41/80, 9/16, 49/80, 27/40, 43/60, 91/120, 97/120, 103/120, 427/480, 221/240, 457/480,
      929/960, 941/960, 239/240, 1] = true := by decide +kernel

theorem approxAtan_close_nonneg {x : ℝ} (h0 : 0 ≤ x) (h1 : x ≤ 1) : |approxAtan x - Real.arctan x| ≤ worstCaseError := by
  have h := boundedOn_sound _ _ _ _ atanError_bounded x (by simpa using h0) (by simpa using h1) (by simp)
  have e : eval atanError x = approxAtan x - eval arctanPoly x := by
    unfold atanError
    rw [eval_add, eval_smul]
    simp only [eval, approxAtan]
    push_cast
    ring
  rw [e] at h
  have h2 := arctanPoly_close h0 h1
  have : approxAtan x - Real.arctan x = (approxAtan x - eval arctanPoly x) + (eval arctanPoly x - Real.arctan x) := by ring
  rw [this]
  refine le_trans (abs_add_le _ _) ?_
  unfold worstCaseError
  push_cast at h
  linarith

theorem approxAtan_close {x : ℝ} (h0 : -1 ≤ x) (h1 : x ≤ 1) : |approxAtan x - Real.arctan x| ≤ worstCaseError := by
  rcases le_total 0 x with h | h
  · exact approxAtan_close_nonneg h h1
  · have := approxAtan_close_nonneg (x := -x) (by linarith) (by linarith)
    rw [approxAtan_neg, Real.arctan_neg, show -approxAtan x - -Real.arctan x = -(approxAtan x - Real.arctan x) by ring, abs_neg] at this
    exact this

theorem approxAtan2_scale {r : ℝ} (hr : 0 < r) (y x : ℝ) : approxAtan2 (r * y) (r * x) = approxAtan2 y x := by
  unfold approxAtan2
  have h1 : (r * y = 0 ∧ r * x = 0) ↔ (y = 0 ∧ x = 0) := by simp [hr.ne']
  have h2 : |r * x| < |r * y| ↔ |x| < |y| := by
    rw [abs_mul, abs_mul, abs_of_pos hr]; exact mul_lt_mul_iff_right₀ hr
  have h3 : r * x < 0 ↔ x < 0 := by constructor <;> intro h <;> nlinarith
  have h4 : 0 ≤ r * y ↔ 0 ≤ y := by constructor <;> intro h <;> nlinarith
  have h5 : 0 < r * y ↔ 0 < y := by constructor <;> intro h <;> nlinarith
  have h6 : r * x = 0 ↔ x = 0 := by simp [hr.ne']
  have h7 : r * y = 0 ↔ y = 0 := by simp [hr.ne']
  simp only [h7, h2, h3, h4, h5, h6, mul_div_mul_left _ _ hr.ne']

/-- The value of `approximate::atan2` by octant. -/
theorem approxAtan2_flat {y x : ℝ} (h : |y| ≤ |x|) (hx : x ≠ 0) :
    approxAtan2 y x = some ((if x < 0 then (if 0 ≤ y then Real.pi else -Real.pi) else 0) + approxAtan (y / x)) := by
  unfold approxAtan2
  rw [if_neg (fun h => hx h.2)]
  simp only [if_neg (not_lt.2 h)]
  split <;> simp

theorem approxAtan2_steep {y x : ℝ} (h : |x| < |y|) :
    approxAtan2 y x = some ((if 0 < y then Real.pi / 2 else -(Real.pi / 2)) - approxAtan (x / y)) := by
  have hy : y ≠ 0 := by rintro rfl; simp at h; exact absurd h (not_lt.2 (abs_nonneg _))
  unfold approxAtan2
  rw [if_neg (fun h => hy h.1)]
  simp only [if_pos h, Option.some.injEq]
  rcases lt_trichotomy y 0 with h1 | h1 | h1
  · have a1 : ¬ 0 < y := by linarith
    have a2 : ¬ 0 ≤ y := by linarith
    rcases lt_trichotomy x 0 with h2 | h2 | h2
    · have : 0 < x / y := div_pos_of_neg_of_neg h2 h1
      simp [h2, this, a1, a2]; ring
    · subst h2; simp [a1]
    · have : ¬ 0 < x / y := not_lt.2 (div_nonpos_of_nonneg_of_nonpos h2.le h1.le)
      simp [not_lt.2 h2.le, this, a1]
  · exact absurd h1 hy
  · have a2 : 0 ≤ y := h1.le
    rcases lt_trichotomy x 0 with h2 | h2 | h2
    · have : ¬ 0 < x / y := not_lt.2 (div_nonpos_of_nonpos_of_nonneg h2.le h1.le)
      simp [h2, this, h1, a2, h2.ne]; ring
    · subst h2; simp [h1]
    · have : 0 < x / y := div_pos h2 h1
      simp [not_lt.2 h2.le, this, h1]

/-- C70: `approximate::atan2` is within its stated worst case error of the angle of the point, in every direction. -/
theorem C70_atan2 (r θ : ℝ) (hr : 0 < r) (h1 : -Real.pi < θ) (h2 : θ ≤ Real.pi) :
    ∃ a, approxAtan2 (r * Real.sin θ) (r * Real.cos θ) = some a ∧ |a - θ| ≤ worstCaseError := by
  rw [approxAtan2_scale hr]
  have hpi := Real.pi_pos
  have div_bound : ∀ a b : ℝ, |a| ≤ |b| → -1 ≤ a / b ∧ a / b ≤ 1 := by
    intro a b h
    rw [← abs_le, abs_div]
    exact div_le_one_of_le₀ h (abs_nonneg _)
  by_cases hs : |Real.cos θ| < |Real.sin θ|
  · refine ⟨_, approxAtan2_steep hs, ?_⟩
    obtain ⟨b1, b2⟩ := div_bound _ _ hs.le
    have hc := approxAtan_close b1 b2
    have hsin : Real.sin θ ≠ 0 := by intro h; rw [h] at hs; simp at hs; exact absurd hs (not_lt.2 (abs_nonneg _))
    by_cases hp : 0 < Real.sin θ
    · have hθ : 0 < θ := by
        by_contra hcon
        exact absurd hp (not_lt.2 (Real.sin_nonpos_of_nonpos_of_neg_pi_le (by linarith) (by linarith)))
      have hθ' : θ < Real.pi := lt_of_le_of_ne h2 (fun e => by rw [e, Real.sin_pi] at hp; exact lt_irrefl _ hp)
      have ht : Real.cos θ / Real.sin θ = Real.tan (Real.pi / 2 - θ) := by
        rw [Real.tan_eq_sin_div_cos, Real.sin_pi_div_two_sub, Real.cos_pi_div_two_sub]
      rw [ht, Real.arctan_tan (by linarith) (by linarith)] at hc
      rw [if_pos hp, ht, show Real.pi / 2 - approxAtan (Real.tan (Real.pi / 2 - θ)) - θ = -(approxAtan (Real.tan (Real.pi / 2 - θ)) - (Real.pi / 2 - θ)) by ring,
        abs_neg]
      exact hc
    · have hneg : Real.sin θ < 0 := lt_of_le_of_ne (not_lt.1 hp) hsin
      have hθ : θ < 0 := by
        by_contra hcon
        exact absurd hneg (not_lt.2 (Real.sin_nonneg_of_nonneg_of_le_pi (by linarith) h2))
      have ht : Real.cos θ / Real.sin θ = Real.tan (-(Real.pi / 2) - θ) := by
        rw [Real.tan_eq_sin_div_cos, show -(Real.pi / 2) - θ = -(θ + Real.pi / 2) by ring, Real.sin_neg, Real.cos_neg, Real.sin_add_pi_div_two,
          Real.cos_add_pi_div_two, div_neg, neg_div, neg_neg]
      rw [ht, Real.arctan_tan (by linarith) (by linarith)] at hc
      rw [if_neg hp, ht, show -(Real.pi / 2) - approxAtan (Real.tan (-(Real.pi / 2) - θ)) - θ =
        -(approxAtan (Real.tan (-(Real.pi / 2) - θ)) - (-(Real.pi / 2) - θ)) by ring, abs_neg]
      exact hc
  · rw [not_lt] at hs
    have hcos : Real.cos θ ≠ 0 := by
      intro h
      have := Real.sin_sq_add_cos_sq θ
      rw [h] at hs this
      simp at hs
      rw [hs] at this
      norm_num at this
    refine ⟨_, approxAtan2_flat hs hcos, ?_⟩
    obtain ⟨b1, b2⟩ := div_bound _ _ hs
    have hc := approxAtan_close b1 b2
    rw [← Real.tan_eq_sin_div_cos] at hc ⊢
    by_cases hn : Real.cos θ < 0
    · rw [if_pos hn]
      by_cases hp : 0 ≤ Real.sin θ
      · rw [if_pos hp]
        have hθ : 0 ≤ θ := by
          by_contra hcon
          exact absurd (Real.sin_neg_of_neg_of_neg_pi_lt (by linarith) (by linarith)) (not_lt.2 hp)
        have hθ' : Real.pi / 2 < θ := by
          by_contra hcon
          exact absurd hn (not_lt.2 (Real.cos_nonneg_of_mem_Icc ⟨by linarith, by linarith⟩))
        have ht : Real.tan θ = Real.tan (θ - Real.pi) := (Real.tan_sub_pi θ).symm
        rw [ht, Real.arctan_tan (by linarith) (by linarith)] at hc
        rw [ht, show Real.pi + approxAtan (Real.tan (θ - Real.pi)) - θ = approxAtan (Real.tan (θ - Real.pi)) - (θ - Real.pi) by ring]
        exact hc
      · rw [if_neg hp]
        have hθ : θ < 0 := by
          by_contra hcon
          exact hp (Real.sin_nonneg_of_nonneg_of_le_pi (by linarith) h2)
        have hθ' : θ < -(Real.pi / 2) := by
          by_contra hcon
          exact absurd hn (not_lt.2 (Real.cos_nonneg_of_mem_Icc ⟨by linarith, by linarith⟩))
        have ht : Real.tan θ = Real.tan (θ + Real.pi) := (Real.tan_add_pi θ).symm
        rw [ht, Real.arctan_tan (by linarith) (by linarith)] at hc
        rw [ht, show -Real.pi + approxAtan (Real.tan (θ + Real.pi)) - θ = approxAtan (Real.tan (θ + Real.pi)) - (θ + Real.pi) by ring]
        exact hc
    · rw [if_neg hn, zero_add]
      have hpos : 0 < Real.cos θ := lt_of_le_of_ne (not_lt.1 hn) hcos.symm
      have hθ1 : θ < Real.pi / 2 := by
        by_contra hcon
        exact absurd hpos (not_lt.2 (Real.cos_nonpos_of_pi_div_two_le_of_le (by linarith) (by linarith)))
      have hθ2 : -(Real.pi / 2) < θ := by
        by_contra hcon
        rw [← Real.cos_neg] at hpos
        exact absurd hpos (not_lt.2 (Real.cos_nonpos_of_pi_div_two_le_of_le (by linarith) (by linarith)))
      rw [Real.arctan_tan hθ2 hθ1] at hc
      exact hc

/-- The hypotheses of `C70_atan2` are met by the direction straight to the left and back. -/
example : ∃ a, approxAtan2 (2 * Real.sin (3 * Real.pi / 4)) (2 * Real.cos (3 * Real.pi / 4)) = some a ∧ |a - 3 * Real.pi / 4| ≤ worstCaseError :=
  C70_atan2 2 (3 * Real.pi / 4) (by norm_num) (by linarith [Real.pi_pos]) (by linarith [Real.pi_pos])

/-! ## Projecting an unprojected beam -/

theorem polar (x y : ℝ) (h : x * x + y * y ≠ 0) : ∃ θ, -Real.pi < θ ∧ θ ≤ Real.pi ∧
    x = Real.sqrt (x * x + y * y) * Real.cos θ ∧ y = Real.sqrt (x * x + y * y) * Real.sin θ := by
  have hn : ‖(⟨x, y⟩ : ℂ)‖ = Real.sqrt (x * x + y * y) := by
    rw [Complex.norm_def, Complex.normSq_apply]
  refine ⟨Complex.arg ⟨x, y⟩, Complex.neg_pi_lt_arg _, Complex.arg_le_pi _, ?_, ?_⟩
  · rw [← hn, Complex.norm_mul_cos_arg]
  · rw [← hn, Complex.norm_mul_sin_arg]

theorem sqrt_polar {r : ℝ} (hr : 0 ≤ r) (θ : ℝ) : Real.sqrt (r * Real.cos θ * (r * Real.cos θ) + r * Real.sin θ * (r * Real.sin θ)) = r := by
  rw [show r * Real.cos θ * (r * Real.cos θ) + r * Real.sin θ * (r * Real.sin θ) = r * r * (Real.sin θ ^ 2 + Real.cos θ ^ 2) by ring,
    Real.sin_sq_add_cos_sq, mul_one, Real.sqrt_mul_self hr]

/-- C70: projecting the end point of a beam of an Ouster lidar gives back its range, and its elevation and azimuth up to the error of the arc tangent. -/
theorem C70_ouster_project (o : OusterOffsets) (e a r : ℝ) (hr : 0 < r) (he1 : -Real.pi < e) (he2 : e ≤ Real.pi) (ha1 : -Real.pi < a)
    (ha2 : a ≤ Real.pi) (hout : 0 < r * Real.cos e + o.beam) :
    ∃ s, ousterToSensor o (ousterToCartesian o ⟨e, a, r⟩) = some s ∧ |s.u - e| ≤ worstCaseError ∧ |s.v - a| ≤ worstCaseError ∧ s.depth = r := by
  obtain ⟨a', h1, h2⟩ := C70_atan2 (r * Real.cos e + o.beam) a hout ha1 ha2
  obtain ⟨e', h3, h4⟩ := C70_atan2 r e hr he1 he2
  have hpn : planarNorm (ousterToCartesian o ⟨e, a, r⟩) = r * Real.cos e + o.beam := by
    unfold planarNorm ousterToCartesian
    simp only [vec_zero, vec_one]
    exact sqrt_polar hout.le a
  have h5 : ousterToImage o (ousterToCartesian o ⟨e, a, r⟩) = some (e', a') := by
    unfold ousterToImage
    rw [hpn]
    have b1 : ousterToCartesian o ⟨e, a, r⟩ 1 = (r * Real.cos e + o.beam) * Real.sin a := rfl
    have b0 : ousterToCartesian o ⟨e, a, r⟩ 0 = (r * Real.cos e + o.beam) * Real.cos a := rfl
    have b2 : ousterToCartesian o ⟨e, a, r⟩ 2 = r * Real.sin e + o.z := rfl
    rw [b1, b0, b2, h1, add_sub_cancel_right, add_sub_cancel_right, h3]
    rfl
  refine ⟨⟨e', a', ousterDepth o (ousterToCartesian o ⟨e, a, r⟩)⟩, ?_, h4, h2, ?_⟩
  · unfold ousterToSensor
    rw [h5]
    rfl
  · show ousterDepth o (ousterToCartesian o ⟨e, a, r⟩) = r
    unfold ousterDepth
    rw [hpn]
    have b2 : ousterToCartesian o ⟨e, a, r⟩ 2 = r * Real.sin e + o.z := rfl
    rw [b2, add_sub_cancel_right, add_sub_cancel_right, sqrt_polar hr.le]

/-- A lidar without offsets. -/
theorem spherical_eq_ouster (p : Vec3) : sphericalToSensor p = ousterToSensor ⟨0, 0⟩ p := by
  have hd : norm3 p = ousterDepth ⟨0, 0⟩ p := by
    unfold norm3 ousterDepth planarNorm
    congr 1
    simp only [sub_zero]
    rw [Real.mul_self_sqrt (add_nonneg (mul_self_nonneg _) (mul_self_nonneg _))]
  unfold sphericalToSensor ousterToSensor sphericalToImage ousterToImage
  rw [hd]
  simp only [sub_zero]
  change Option.map _ (Option.bind (approxAtan2 (p 2) (planarNorm p)) fun b => Option.bind (approxAtan2 (p 1) (p 0)) fun c => some (b, c)) =
    Option.map _ (Option.bind (approxAtan2 (p 1) (p 0)) fun c => Option.bind (approxAtan2 (p 2) (planarNorm p)) fun b => some (b, c))
  cases approxAtan2 (p 1) (p 0) <;> cases approxAtan2 (p 2) (planarNorm p) <;> rfl

theorem spherical_cartesian_eq (s : SensorCoordinates) : sphericalToCartesian s = ousterToCartesian ⟨0, 0⟩ s := by
  unfold sphericalToCartesian ousterToCartesian
  simp only [add_zero]
  congr 1
  · ring
  · congr 1
    ring

/-- C70: the same for a spherical lidar. -/
theorem C70_spherical_project (e a r : ℝ) (hr : 0 < r) (he1 : -(Real.pi / 2) < e) (he2 : e < Real.pi / 2) (ha1 : -Real.pi < a)
    (ha2 : a ≤ Real.pi) :
    ∃ s, sphericalToSensor (sphericalToCartesian ⟨e, a, r⟩) = some s ∧ |s.u - e| ≤ worstCaseError ∧ |s.v - a| ≤ worstCaseError ∧ s.depth = r := by
  rw [spherical_eq_ouster, spherical_cartesian_eq]
  have hpi := Real.pi_pos
  refine C70_ouster_project ⟨0, 0⟩ e a r hr (by linarith) (by linarith) ha1 ha2 ?_
  simp only [add_zero]
  exact mul_pos hr (Real.cos_pos_of_mem_Ioo ⟨he1, he2⟩)

/-- The hypotheses are met by a beam pointing up and backwards. -/
example : ∃ s, ousterToSensor ⟨2, 3⟩ (ousterToCartesian ⟨2, 3⟩ ⟨1, 3, 10⟩) = some s ∧ |s.u - 1| ≤ worstCaseError ∧ |s.v - 3| ≤ worstCaseError ∧
    s.depth = 10 := by
  have h3 := Real.pi_gt_three
  refine C70_ouster_project ⟨2, 3⟩ 1 3 10 (by norm_num) (by linarith) (by linarith) (by linarith) (by linarith) ?_
  have := Real.cos_pos_of_mem_Ioo (x := 1) ⟨by linarith, by linarith⟩
  simp only
  linarith

/-! ## Unprojecting a projected point -/

theorem dist3_triangle (p q r : Vec3) : dist3 p r ≤ dist3 p q + dist3 q r := by
  have key : ∀ a b : Vec3, dist3 a b = dist (WithLp.toLp 2 a : EuclideanSpace ℝ (Fin 3)) (WithLp.toLp 2 b) := by
    intro a b
    rw [EuclideanSpace.dist_eq]
    unfold dist3
    simp [Fin.sum_univ_three, Real.dist_eq, sq_abs]
  rw [key, key, key]
  exact dist_triangle _ _ _

/-- Turning a point by a small angle moves it little. -/
theorem chord_le (r θ θ' w : ℝ) (hr : 0 ≤ r) (h : |θ' - θ| ≤ w) :
    (r * Real.cos θ - r * Real.cos θ') ^ 2 + (r * Real.sin θ - r * Real.sin θ') ^ 2 ≤ (r * w) ^ 2 := by
  have e : (r * Real.cos θ - r * Real.cos θ') ^ 2 + (r * Real.sin θ - r * Real.sin θ') ^ 2 =
      r ^ 2 * (2 - 2 * Real.cos (θ' - θ)) := by
    rw [Real.cos_sub]
    have h1 := Real.sin_sq_add_cos_sq θ
    have h2 := Real.sin_sq_add_cos_sq θ'
    have h3 : Real.sin θ ^ 2 = 1 - Real.cos θ ^ 2 := by linarith
    have h4 : Real.sin θ' ^ 2 = 1 - Real.cos θ' ^ 2 := by linarith
    have : (r * Real.sin θ - r * Real.sin θ') ^ 2 = r ^ 2 * (Real.sin θ ^ 2 + Real.sin θ' ^ 2 - 2 * Real.sin θ * Real.sin θ') := by ring
    rw [this, h3, h4]
    ring
  rw [e, mul_pow]
  refine mul_le_mul_of_nonneg_left ?_ (sq_nonneg r)
  have h1 := Real.one_sub_sq_div_two_le_cos (x := θ' - θ)
  have h2 : (θ' - θ) ^ 2 ≤ w ^ 2 := by rw [← sq_abs]; exact pow_le_pow_left₀ (abs_nonneg _) h 2
  linarith

/-- C70: unprojecting the projection of a point gives a point close by. The distance is at most the error of the arc tangent times the sum of the distance from the
beam's origin and the distance from the vertical axis. -/
theorem C70_ouster_unproject (o : OusterOffsets) (p : Vec3) (haxis : 0 < planarNorm p) (horigin : 0 < ousterDepth o p) :
    ∃ s, ousterToSensor o p = some s ∧ s.depth = ousterDepth o p ∧
      dist3 p (ousterToCartesian o s) ≤ worstCaseError * (ousterDepth o p + planarNorm p) := by
  have hax : p 0 * p 0 + p 1 * p 1 ≠ 0 := fun h => by unfold planarNorm at haxis; rw [h, Real.sqrt_zero] at haxis; exact lt_irrefl _ haxis
  have hor : (planarNorm p - o.beam) * (planarNorm p - o.beam) + (p 2 - o.z) * (p 2 - o.z) ≠ 0 := fun h => by
    unfold ousterDepth at horigin; rw [h, Real.sqrt_zero] at horigin; exact lt_irrefl _ horigin
  obtain ⟨θ, t1, t2, t3, t4⟩ := polar _ _ hax
  obtain ⟨φ, f1, f2, f3, f4⟩ := polar _ _ hor
  obtain ⟨a, ha, ha'⟩ := C70_atan2 (planarNorm p) θ haxis t1 t2
  obtain ⟨e, he, he'⟩ := C70_atan2 (ousterDepth o p) φ horigin f1 f2
  change p 0 = planarNorm p * Real.cos θ at t3
  change p 1 = planarNorm p * Real.sin θ at t4
  change planarNorm p - o.beam = ousterDepth o p * Real.cos φ at f3
  change p 2 - o.z = ousterDepth o p * Real.sin φ at f4
  rw [← t3, ← t4] at ha
  rw [← f3, ← f4] at he
  refine ⟨⟨e, a, ousterDepth o p⟩, ?_, rfl, ?_⟩
  · unfold ousterToSensor ousterToImage
    rw [ha, he]
    rfl
  · have hw : (0 : ℝ) ≤ worstCaseError := by unfold worstCaseError; norm_num
    generalize hρ : planarNorm p = ρ at *
    generalize hd : ousterDepth o p = d at *
    have hm1 : dist3 p ![ρ * Real.cos a, ρ * Real.sin a, p 2] ≤ ρ * worstCaseError := by
      unfold dist3
      simp only [vec_zero, vec_one, vec_two]
      refine Real.sqrt_le_iff.2 ⟨mul_nonneg haxis.le hw, ?_⟩
      have := chord_le ρ θ a _ haxis.le ha'
      rw [t3, t4, sub_self]
      linarith
    have hm2 : dist3 ![ρ * Real.cos a, ρ * Real.sin a, p 2] (ousterToCartesian o ⟨e, a, d⟩) ≤ d * worstCaseError := by
      unfold dist3 ousterToCartesian
      simp only [vec_zero, vec_one, vec_two]
      refine Real.sqrt_le_iff.2 ⟨mul_nonneg horigin.le hw, ?_⟩
      have h := chord_le d φ e _ horigin.le he'
      have e1 : ρ = d * Real.cos φ + o.beam := by linarith
      have e2 : p 2 = d * Real.sin φ + o.z := by linarith
      have h1 := Real.sin_sq_add_cos_sq a
      rw [e1, e2]
      calc _ = (d * Real.cos φ - d * Real.cos e) ^ 2 * (Real.sin a ^ 2 + Real.cos a ^ 2) + (d * Real.sin φ - d * Real.sin e) ^ 2 := by ring
        _ ≤ _ := by rw [h1, mul_one]; exact h
    calc _ ≤ _ := dist3_triangle _ _ _
      _ ≤ _ := add_le_add hm1 hm2
      _ = _ := by ring

/-- C70: the same for a spherical lidar. -/
theorem C70_spherical_unproject (p : Vec3) (haxis : 0 < planarNorm p) :
    ∃ s, sphericalToSensor p = some s ∧ s.depth = norm3 p ∧
      dist3 p (sphericalToCartesian s) ≤ worstCaseError * (norm3 p + planarNorm p) := by
  have hd : norm3 p = ousterDepth ⟨0, 0⟩ p := by
    unfold norm3 ousterDepth planarNorm
    congr 1
    simp only [sub_zero]
    rw [Real.mul_self_sqrt (add_nonneg (mul_self_nonneg _) (mul_self_nonneg _))]
  have hpos : 0 < ousterDepth ⟨0, 0⟩ p := by
    rw [← hd]
    unfold planarNorm at haxis
    unfold norm3
    rw [Real.sqrt_pos] at haxis ⊢
    nlinarith [mul_self_nonneg (p 2)]
  obtain ⟨s, h1, h2, h3⟩ := C70_ouster_unproject ⟨0, 0⟩ p haxis hpos
  exact ⟨s, by rw [spherical_eq_ouster]; exact h1, by rw [hd]; exact h2, by rw [spherical_cartesian_eq, hd]; exact h3⟩

/-- The hypotheses are met by a point behind and below the sensor. -/
example : ∃ s, sphericalToSensor ![-3, 4, -12] = some s ∧ s.depth = 13 ∧
    dist3 ![-3, 4, -12] (sphericalToCartesian s) ≤ worstCaseError * (13 + 5) := by
  have h5 : planarNorm ![-3, 4, -12] = 5 := by
    unfold planarNorm
    simp only [vec_zero, vec_one]
    rw [show (-3 : ℝ) * -3 + 4 * 4 = 5 * 5 by norm_num, Real.sqrt_mul_self (by norm_num)]
  have h13 : norm3 ![-3, 4, -12] = 13 := by
    unfold norm3
    simp only [vec_zero, vec_one, vec_two]
    rw [show (-3 : ℝ) * -3 + 4 * 4 + -12 * -12 = 13 * 13 by norm_num, Real.sqrt_mul_self (by norm_num)]
  have := C70_spherical_unproject ![-3, 4, -12] (by rw [h5]; norm_num)
  rwa [h5, h13] at this

/-! ## The depth interval of a cell -/

theorem norm3_rotation {R : Fin 3 → Vec3} (hR : IsRotation R) (t p : Vec3) : norm3 (toSensorFrame R t p) = norm3 fun k => p k - t k := by
  unfold norm3
  congr 1
  unfold toSensorFrame
  have h00 := hR 0 0
  have h11 := hR 1 1
  have h22 := hR 2 2
  have h01 := hR 0 1
  have h02 := hR 0 2
  have h12 := hR 1 2
  simp at h00 h11 h22 h01 h02 h12
  simp only [Fin.sum_univ_three]
  linear_combination ((p 0 - t 0) ^ 2) * h00 + ((p 1 - t 1) ^ 2) * h11 + ((p 2 - t 2) ^ 2) * h22 + (2 * (p 0 - t 0) * (p 1 - t 1)) * h01 +
    (2 * (p 0 - t 0) * (p 2 - t 2)) * h02 + (2 * (p 1 - t 1) * (p 2 - t 2)) * h12

theorem norm3_mono {a b : Vec3} (h : ∀ k, |a k| ≤ |b k|) : norm3 a ≤ norm3 b := by
  unfold norm3
  have h' : ∀ k, a k * a k ≤ b k * b k := fun k => by
    rw [← abs_mul_abs_self (a k), ← abs_mul_abs_self (b k)]
    exact mul_self_le_mul_self (abs_nonneg _) (h k)
  exact Real.sqrt_le_sqrt (by linarith [h' 0, h' 1, h' 2])

/-- C70: for a spherical lidar in any pose, the depth interval of a cell contains the depth of every point of the cell. -/
theorem C70_spherical_depth (R : Fin 3 → Vec3) (hR : IsRotation R) (t lo hi p : Vec3) (hp : InCell lo hi p) :
    (lidarDepthInterval lo hi t).1 ≤ norm3 (toSensorFrame R t p) ∧ norm3 (toSensorFrame R t p) ≤ (lidarDepthInterval lo hi t).2 := by
  rw [norm3_rotation hR]
  unfold lidarDepthInterval boxMinDistance boxMaxDistance
  dsimp only
  constructor
  · refine norm3_mono fun k => ?_
    obtain ⟨h1, h2⟩ := hp k
    rw [abs_le]
    rcases le_total (t k) (lo k) with h | h
    · rw [max_eq_right h, min_eq_left (by linarith)]
      have := le_abs_self (p k - t k)
      have := abs_nonneg (p k - t k)
      constructor <;> linarith
    · rw [max_eq_left h]
      rcases le_total (t k) (hi k) with h' | h'
      · rw [min_eq_left h', sub_self]
        have := abs_nonneg (p k - t k)
        constructor <;> linarith
      · rw [min_eq_right h']
        have := neg_abs_le (p k - t k)
        have := abs_nonneg (p k - t k)
        constructor <;> linarith
  · refine norm3_mono fun k => ?_
    obtain ⟨h1, h2⟩ := hp k
    split
    · rename_i h
      rw [abs_le, abs_of_nonneg (by linarith)]
      constructor <;> linarith
    · rename_i h
      rw [abs_le, abs_of_nonpos (by linarith)]
      constructor <;> linarith

/-- The depth interval is tight: both ends are the depth of a point of the cell. -/
theorem C70_spherical_depth_tight (R : Fin 3 → Vec3) (hR : IsRotation R) (t lo hi : Vec3) (hbox : ∀ k, lo k ≤ hi k) :
    (∃ p, InCell lo hi p ∧ norm3 (toSensorFrame R t p) = (lidarDepthInterval lo hi t).1) ∧
    ∃ p, InCell lo hi p ∧ norm3 (toSensorFrame R t p) = (lidarDepthInterval lo hi t).2 := by
  have hsymm : ∀ a b : Vec3, (norm3 fun k => a k - b k) = norm3 fun k => b k - a k := by
    intro a b
    unfold norm3
    congr 1
    ring
  constructor
  · refine ⟨fun k => min (max (t k) (lo k)) (hi k), fun k => ⟨?_, min_le_right _ _⟩, ?_⟩
    · exact le_min (le_max_right _ _) (hbox k)
    · rw [norm3_rotation hR, hsymm]
      rfl
  · refine ⟨fun k => if (lo k + hi k) / 2 < t k then lo k else hi k, fun k => ?_, ?_⟩
    · have := hbox k
      simp only
      split <;> constructor <;> linarith
    · rw [norm3_rotation hR, hsymm]
      rfl

/-- C70: an Ouster lidar measures depth from the start of the beam. The depth of a point of the cell is outside of the cell's interval by at most the length of
the offset. `_partial`: it can be outside (`C70_ouster_depth_fails`). -/
theorem C70_ouster_depth_partial (o : OusterOffsets) (R : Fin 3 → Vec3) (hR : IsRotation R) (t lo hi p : Vec3) (hp : InCell lo hi p) :
    (lidarDepthInterval lo hi t).1 - Real.sqrt (o.beam * o.beam + o.z * o.z) ≤ ousterDepth o (toSensorFrame R t p) ∧
    ousterDepth o (toSensorFrame R t p) ≤ (lidarDepthInterval lo hi t).2 + Real.sqrt (o.beam * o.beam + o.z * o.z) := by
  obtain ⟨h1, h2⟩ := C70_spherical_depth R hR t lo hi p hp
  generalize toSensorFrame R t p = q at *
  have hn : norm3 q = ‖(⟨planarNorm q, q 2⟩ : ℂ)‖ := by
    rw [Complex.norm_def, Complex.normSq_apply]
    unfold norm3 planarNorm
    simp only
    rw [Real.mul_self_sqrt (add_nonneg (mul_self_nonneg _) (mul_self_nonneg _))]
  have hd : ousterDepth o q = ‖(⟨planarNorm q, q 2⟩ : ℂ) - ⟨o.beam, o.z⟩‖ := by
    rw [Complex.norm_def, Complex.normSq_apply]
    rfl
  have ho : Real.sqrt (o.beam * o.beam + o.z * o.z) = ‖(⟨o.beam, o.z⟩ : ℂ)‖ := by
    rw [Complex.norm_def, Complex.normSq_apply]
  rw [ho, hd]
  rw [hn] at h1 h2
  have a1 := norm_sub_le (⟨planarNorm q, q 2⟩ : ℂ) ⟨o.beam, o.z⟩
  have a2 := norm_sub_norm_le (⟨planarNorm q, q 2⟩ : ℂ) ⟨o.beam, o.z⟩
  constructor <;> linarith

/-- The identity is a rotation, so the three depth theorems apply to a cell of side 2 in front of the sensor. -/
example : IsRotation idRot ∧ InCell ![9, -1, -1] ![11, 1, 1] ![10, 0, 0] := by
  constructor
  · intro j k
    fin_cases j <;> fin_cases k <;> simp [idRot]
  · intro k
    fin_cases k <;> norm_num

/-- Counterexample: with the beam starting 1 in front of the lidar's origin, the nearest point of a cell is nearer than the depth interval says. -/
theorem C70_ouster_depth_fails : ∃ (o : OusterOffsets) (R : Fin 3 → Vec3) (t lo hi p : Vec3), IsRotation R ∧ InCell lo hi p ∧
    ousterDepth o (toSensorFrame R t p) < (lidarDepthInterval lo hi t).1 := by
  refine ⟨⟨1, 0⟩, idRot, ![0, 0, 0], ![9, -1, -1], ![11, 1, 1], ![9, 0, 0], ?_, ?_, ?_⟩
  · intro j k
    fin_cases j <;> fin_cases k <;> simp [idRot]
  · intro k
    fin_cases k <;> norm_num
  · rw [idRot_frame]
    have h1 : ousterDepth ⟨1, 0⟩ ![9, 0, 0] = 8 := by
      unfold ousterDepth planarNorm
      simp only [vec_zero, vec_one, vec_two]
      rw [show (9 : ℝ) * 9 + 0 * 0 = 9 * 9 by norm_num, Real.sqrt_mul_self (by norm_num),
        show ((9 : ℝ) - 1) * (9 - 1) + (0 - 0) * (0 - 0) = 8 * 8 by norm_num, Real.sqrt_mul_self (by norm_num)]
    have h2 : (lidarDepthInterval ![9, -1, -1] ![11, 1, 1] ![0, 0, 0]).1 = 9 := by
      unfold lidarDepthInterval boxMinDistance norm3
      simp only [vec_zero, vec_one, vec_two]
      rw [show max (0 : ℝ) 9 = 9 by norm_num, show min (9 : ℝ) 11 = 9 by norm_num, show max (0 : ℝ) (-1) = 0 by norm_num,
        show min (0 : ℝ) 1 = 0 by norm_num, show ((0 : ℝ) - 9) * (0 - 9) + (0 - 0) * (0 - 0) + (0 - 0) * (0 - 0) = 9 * 9 by norm_num,
        Real.sqrt_mul_self (by norm_num)]
    rw [h1, h2]
    norm_num

/-! ## Images that go all the way round -/

/-- C70: exactly which images are treated as periodic. -/
theorem C70_periodic (lo hi : ℝ) (cells : Int) (hv : ValidAxis lo hi cells) :
    axisIsPeriodic lo hi cells ↔ FullCircle lo hi cells ∧ ¬ (lo = -Real.pi ∧ hi + pixelAngle lo hi cells = Real.pi) := by
  obtain ⟨h1, h2, h3, h4, h5, h6⟩ := hv
  have hpi := Real.pi_pos
  have hinc : 0 < pixelAngle lo hi cells := by
    unfold pixelAngle
    have : (0 : ℝ) < ((cells - 1 : Int) : ℝ) := by exact_mod_cast (by omega : (0 : Int) < cells - 1)
    exact div_pos (by linarith) this
  unfold axisIsPeriodic FullCircle normalizeNear
  generalize pixelAngle lo hi cells = c at *
  simp only
  rw [if_neg (by linarith)]
  by_cases h : Real.pi < hi + c
  · rw [if_pos h]
    constructor
    · rintro ⟨a, b⟩
      exact ⟨by linarith, fun hh => by linarith [hh.2]⟩
    · rintro ⟨a, b⟩
      constructor <;> linarith
  · rw [if_neg h]
    constructor
    · rintro ⟨a, b⟩
      exact absurd b (by linarith)
    · rintro ⟨a, b⟩
      exact absurd ⟨by linarith, by linarith⟩ b

/-- Counterexample: an image of four columns from `-π` to `π/2` goes all the way round, with each direction seen once, and is not treated as periodic. -/
theorem C70_periodic_fails : ∃ (lo hi : ℝ) (cells : Int), ValidAxis lo hi cells ∧ FullCircle lo hi cells ∧ ¬ axisIsPeriodic lo hi cells := by
  have hpi := Real.pi_pos
  have hc : pixelAngle (-Real.pi) (Real.pi / 2) 4 = Real.pi / 2 := by unfold pixelAngle; norm_num; ring
  have hv : ValidAxis (-Real.pi) (Real.pi / 2) 4 := ⟨by linarith, by linarith, by linarith, by linarith, by linarith, by norm_num⟩
  refine ⟨-Real.pi, Real.pi / 2, 4, hv, ?_, ?_⟩
  · unfold FullCircle
    rw [hc]
    linarith
  · rw [C70_periodic _ _ _ hv, hc]
    rintro ⟨_, h⟩
    exact h ⟨rfl, by ring⟩

/-- The hypotheses are met, on both sides: from `-π` to `π` is periodic, from `0` to `1` is not. -/
example : axisIsPeriodic (-Real.pi) Real.pi 5 ∧ ¬ axisIsPeriodic 0 1 5 := by
  have hpi := Real.pi_gt_three
  have c1 : pixelAngle (-Real.pi) Real.pi 5 = Real.pi / 2 := by unfold pixelAngle; norm_num; ring
  have c2 : pixelAngle 0 1 5 = 1 / 4 := by unfold pixelAngle; norm_num
  rw [C70_periodic _ _ _ ⟨by linarith, by linarith, by linarith, by linarith, by linarith, by norm_num⟩,
    C70_periodic _ _ _ ⟨by linarith, by linarith, by linarith, by linarith, by linarith, by norm_num⟩]
  unfold FullCircle
  rw [c1, c2]
  exact ⟨⟨by linarith, fun h => by linarith [h.2]⟩, fun h => by linarith [h.1]⟩

end
end Wavemap
