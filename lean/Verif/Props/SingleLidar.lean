import Verif.Model.SingleLidar
import Verif.Props.LidarProjectors
import Verif.Props.SingleCamera
import Verif.Props.SingleMeasurement
/-!
# C94: lidar projections in single precision
-/
namespace Wavemap
namespace SingleLidar
open SingleCamera SingleMeasurement PolyBound

/-! ## Specification -/

/-- `θ` is an angle of the point `(x, y)`, between `-π` and `π`. A point straight behind has two of them. -/
def IsAngle (θ x y : ℝ) : Prop := |θ| ≤ Real.pi ∧ ∃ r > 0, x = r * Real.cos θ ∧ y = r * Real.sin θ

/-- The bound on the error of an angle. -/
noncomputable def angleError : ℝ := 28 / 10000000

/-- The bound on the error of an elevation. -/
noncomputable def elevationError : ℝ := 30 / 10000000

/-! ## The polynomial -/

/-- The polynomial without rounding. -/
def atanQ (x : ℚ) : ℚ :=
  let q := x * x
  x * (q * (q * (q * (q * (q * (-1172120 / 100000000) + 5265332 / 100000000) + (-11643287 / 100000000))
    + 19354346 / 100000000) + (-33262347 / 100000000)) + 99997726 / 100000000)

theorem atanQ_cast (x : ℚ) : ((atanQ x : ℚ) : ℝ) = Wavemap.approxAtan x := by
  unfold atanQ Wavemap.approxAtan
  push_cast
  ring

/-- One step of Horner's scheme. -/
theorem horner {Q q U u c a B C : ℚ} (hQ0 : 0 ≤ Q) (hQ1 : Q ≤ 1) (hQ : |Q - q| ≤ 1 / 2 ^ 24) (hU : |U - u| ≤ a / 2 ^ 24) (hB : |u| ≤ B)
    (hC : |q * u + c| ≤ C) (hs : a + B + |c| ≤ 10) : |fl (Q * U + fl c) - (q * u + c)| ≤ (a + B + |c| + C + 1 / 1000) / 2 ^ 24 := by
  have h1 := fl_err (Q * U + fl c)
  have h2 := fl_err c
  have h3 : |Q * U - q * u| ≤ (a + B) / 2 ^ 24 := by
    have e : Q * U - q * u = Q * (U - u) + (Q - q) * u := by ring
    rw [e]
    refine (abs_add_le _ _).trans ?_
    rw [abs_mul, abs_mul, abs_of_nonneg hQ0]
    have k1 : Q * |U - u| ≤ 1 * (a / 2 ^ 24) := mul_le_mul hQ1 hU (abs_nonneg _) (by norm_num)
    have k2 : |Q - q| * |u| ≤ 1 / 2 ^ 24 * B := mul_le_mul hQ hB (abs_nonneg _) (by norm_num)
    linarith
  have h4 : |Q * U + fl c - (q * u + c)| ≤ (a + B + |c|) / 2 ^ 24 := by
    have e : Q * U + fl c - (q * u + c) = (Q * U - q * u) + (fl c - c) := by ring
    rw [e]
    refine (abs_add_le _ _).trans ?_
    linarith
  have h5 : |Q * U + fl c| ≤ C + (a + B + |c|) / 2 ^ 24 := by
    have := abs_add_le (Q * U + fl c - (q * u + c)) (q * u + c)
    rw [sub_add_cancel] at this
    linarith
  have h6 := abs_add_le (fl (Q * U + fl c) - (Q * U + fl c)) (Q * U + fl c - (q * u + c))
  rw [sub_add_sub_cancel] at h6
  generalize |c| = D at *
  generalize |fl (Q * U + fl D) - (Q * U + fl D)| = E at *
  norm_num at *
  linarith

theorem atan_round {x : ℚ} (hx : |x| ≤ 1) : |Single.approxAtan x - atanQ x| ≤ (52 / 10) / 2 ^ 24 := by
  have hq0 : 0 ≤ x * x := mul_self_nonneg x
  have hq1 : x * x ≤ 1 := by have := abs_le.1 hx; nlinarith
  have hQ0 : 0 ≤ fl (x * x) := by have := fl_mono hq0; rwa [fl_zero] at this
  have hQ1 : fl (x * x) ≤ 1 := by
    have := fl_mono hq1
    rwa [fl_of_isFloat (x := 1) ⟨1, 0, by norm_num, by norm_num⟩] at this
  have hQ : |fl (x * x) - x * x| ≤ 1 / 2 ^ 24 := by
    refine (fl_err _).trans ?_
    rw [abs_of_nonneg hq0]
    exact div_le_div_of_nonneg_right hq1 (by norm_num)
  unfold Single.approxAtan atanQ
  dsimp only
  generalize fl (x * x) = Q at *
  generalize x * x = q at *
  have s0 : |fl (-1172120 / 100000000) - (-1172120 / 100000000)| ≤ (118 / 10000) / 2 ^ 24 := by
    refine (fl_err _).trans ?_
    norm_num [abs_of_neg]
  have u9 : 0 ≤ q * (-1172120 / 100000000) + 5265332 / 100000000 ∧ q * (-1172120 / 100000000) + 5265332 / 100000000 ≤ 527 / 10000 := by
    constructor <;> linarith
  have s9 := horner (B := 118 / 10000) (C := 527 / 10000) (c := 5265332 / 100000000) hQ0 hQ1 hQ s0 (by norm_num [abs_of_neg])
    (by rw [abs_of_nonneg u9.1]; exact u9.2) (by norm_num [abs_of_pos])
  generalize fl (Q * fl (-1172120 / 100000000) + fl (5265332 / 100000000)) = U9 at *
  generalize q * (-1172120 / 100000000) + 5265332 / 100000000 = v9 at *
  have u7 : -1165 / 10000 ≤ q * v9 + (-11643287 / 100000000) ∧ q * v9 + (-11643287 / 100000000) ≤ 0 := by
    constructor <;> nlinarith
  have s7 := horner (B := 527 / 10000) (C := 1165 / 10000) (c := -11643287 / 100000000) hQ0 hQ1 hQ s9 (by rw [abs_of_nonneg u9.1]; exact u9.2)
    (by rw [abs_of_nonpos u7.2]; linarith [u7.1]) (by norm_num [abs_of_pos, abs_of_neg])
  generalize fl (Q * U9 + fl (-11643287 / 100000000)) = U7 at *
  generalize q * v9 + (-11643287 / 100000000) = v7 at *
  have u5 : 0 ≤ q * v7 + 19354346 / 100000000 ∧ q * v7 + 19354346 / 100000000 ≤ 1936 / 10000 := by
    constructor <;> nlinarith
  have s5 := horner (B := 1165 / 10000) (C := 1936 / 10000) (c := 19354346 / 100000000) hQ0 hQ1 hQ s7 (by rw [abs_of_nonpos u7.2]; linarith [u7.1])
    (by rw [abs_of_nonneg u5.1]; exact u5.2) (by norm_num [abs_of_pos, abs_of_neg])
  generalize fl (Q * U7 + fl (19354346 / 100000000)) = U5 at *
  generalize q * v7 + 19354346 / 100000000 = v5 at *
  have u3 : -3327 / 10000 ≤ q * v5 + (-33262347 / 100000000) ∧ q * v5 + (-33262347 / 100000000) ≤ 0 := by
    constructor <;> nlinarith
  have s3 := horner (B := 1936 / 10000) (C := 3327 / 10000) (c := -33262347 / 100000000) hQ0 hQ1 hQ s5 (by rw [abs_of_nonneg u5.1]; exact u5.2)
    (by rw [abs_of_nonpos u3.2]; linarith [u3.1]) (by norm_num [abs_of_pos, abs_of_neg])
  generalize fl (Q * U5 + fl (-33262347 / 100000000)) = U3 at *
  generalize q * v5 + (-33262347 / 100000000) = v3 at *
  have u1 : 0 ≤ q * v3 + 99997726 / 100000000 ∧ q * v3 + 99997726 / 100000000 ≤ 1 := by
    constructor <;> nlinarith
  have s1 := horner (B := 3327 / 10000) (C := 1) (c := 99997726 / 100000000) hQ0 hQ1 hQ s3 (by rw [abs_of_nonpos u3.2]; linarith [u3.1])
    (by rw [abs_of_nonneg u1.1]; exact u1.2) (by norm_num [abs_of_pos, abs_of_neg])
  generalize fl (Q * U3 + fl (99997726 / 100000000)) = U1 at *
  generalize q * v3 + 99997726 / 100000000 = v1 at *
  norm_num [abs_of_pos, abs_of_neg] at s1
  have h1 : |x * U1 - x * v1| ≤ |U1 - v1| := by
    rw [← mul_sub, abs_mul]
    nlinarith [abs_nonneg (U1 - v1)]
  have h2 : |x * v1| ≤ 1 := by
    rw [abs_mul, abs_of_nonneg u1.1]
    nlinarith [abs_nonneg x]
  have h3 : |x * U1| ≤ 1 + |U1 - v1| := by
    have := abs_add_le (x * U1 - x * v1) (x * v1)
    rw [sub_add_cancel] at this
    linarith
  have h4 := fl_err (x * U1)
  have h5 := abs_add_le (fl (x * U1) - x * U1) (x * U1 - x * v1)
  rw [sub_add_sub_cancel] at h5
  generalize |U1 - v1| = E at *
  generalize |x * U1| = F at *
  norm_num at *
  linarith

theorem arctan_lip (a b : ℝ) : |Real.arctan a - Real.arctan b| ≤ |a - b| := by
  have h := Convex.norm_image_sub_le_of_norm_deriv_le (f := Real.arctan) (s := Set.univ) (C := 1) (x := b) (y := a)
    (fun x _ => Real.differentiableAt_arctan x) (fun x _ => by
      rw [Real.deriv_arctan, Real.norm_eq_abs, abs_of_pos (by positivity), div_le_one (by positivity)]
      nlinarith [sq_nonneg x]) convex_univ (Set.mem_univ _) (Set.mem_univ _)
  simpa [Real.norm_eq_abs] using h

/-- The arc tangent of a rounded quotient. -/
theorem atan_err {t : ℚ} (ht : |t| ≤ 1) : |((Single.approxAtan (fl t) : ℚ) : ℝ) - Real.arctan t| ≤ worstCaseError + (62 / 10) / 2 ^ 24 ∧
    |Single.approxAtan (fl t)| ≤ 1 := by
  have h1 := abs_le.1 ht
  have f1 : fl 1 = 1 := fl_of_isFloat ⟨1, 0, by norm_num, by norm_num⟩
  have b1 : fl t ≤ 1 := by have := fl_mono h1.2; rwa [f1] at this
  have b2 : -1 ≤ fl t := by have := fl_mono h1.1; rwa [fl_neg, f1] at this
  have hT : |fl t| ≤ 1 := abs_le.2 ⟨b2, b1⟩
  have r1 := atan_round hT
  have r2 := approxAtan_close (x := (fl t : ℚ)) (by exact_mod_cast b2) (by exact_mod_cast b1)
  have r3 := arctan_lip (fl t : ℚ) (t : ℚ)
  have r4 : |((fl t : ℚ) : ℝ) - (t : ℚ)| ≤ 1 / 2 ^ 24 := by
    have : |fl t - t| ≤ 1 / 2 ^ 24 := (fl_err t).trans (div_le_div_of_nonneg_right ht (by norm_num))
    have := (Rat.cast_le (K := ℝ)).2 this
    push_cast at this
    exact this
  have r5 : |((Single.approxAtan (fl t) : ℚ) : ℝ) - Wavemap.approxAtan (fl t : ℚ)| ≤ (52 / 10) / 2 ^ 24 := by
    rw [← atanQ_cast]
    have := (Rat.cast_le (K := ℝ)).2 r1
    push_cast at this
    exact this
  constructor
  · have a1 := abs_le.1 r2
    have a2 := abs_le.1 (r3.trans r4)
    have a3 := abs_le.1 r5
    rw [abs_le]
    constructor <;> linarith [a1.1, a1.2, a2.1, a2.2, a3.1, a3.2]
  · have h2 : |atanQ (fl t)| ≤ 9 / 10 := by
      generalize fl t = x at *
      have hq0 : 0 ≤ x * x := mul_self_nonneg x
      have hq1 : x * x ≤ 1 := by nlinarith
      have c2 := approxAtan_close (x := (x : ℝ)) (by exact_mod_cast b2) (by exact_mod_cast b1)
      have c3 : |Real.arctan x| ≤ Real.pi / 4 := by
        rw [abs_le]
        constructor
        · rw [← Real.arctan_one, ← Real.arctan_neg]
          exact Real.arctan_strictMono.monotone (by exact_mod_cast b2)
        · rw [← Real.arctan_one]
          exact Real.arctan_strictMono.monotone (by exact_mod_cast b1)
      have c4 : |((atanQ x : ℚ) : ℝ)| ≤ 9 / 10 := by
        rw [atanQ_cast]
        have := Real.pi_lt_d2
        unfold worstCaseError at c2
        have d1 := abs_le.1 c2
        have d2 := abs_le.1 c3
        rw [abs_le]
        constructor <;> linarith [d1.1, d1.2, d2.1, d2.2]
      have : ((|atanQ x| : ℚ) : ℝ) ≤ ((9 / 10 : ℚ) : ℝ) := by push_cast; exact c4
      exact_mod_cast this
    have d1 := abs_le.1 r1
    have d2 := abs_le.1 h2
    rw [abs_le]
    norm_num at d1
    constructor <;> linarith [d1.1, d1.2, d2.1, d2.2]

theorem kPi_err : |((Single.kPi : ℚ) : ℝ) - Real.pi| ≤ 15 / 10 / 2 ^ 24 := by
  have h1 := Real.pi_gt_d20
  have h2 := Real.pi_lt_d20
  unfold Single.kPi
  rw [abs_le]
  push_cast
  constructor <;> norm_num at * <;> linarith

theorem kHalfPi_err : |((Single.kHalfPi : ℚ) : ℝ) - Real.pi / 2| ≤ 8 / 10 / 2 ^ 24 := by
  have h1 := Real.pi_gt_d20
  have h2 := Real.pi_lt_d20
  unfold Single.kHalfPi
  rw [abs_le]
  push_cast
  constructor <;> norm_num at * <;> linarith

/-! ## The angles of a point -/

theorem cos_sin_arctan (t : ℝ) : ∃ c > 0, Real.cos (Real.arctan t) = c ∧ Real.sin (Real.arctan t) = t * c := by
  refine ⟨_, Real.cos_arctan_pos t, rfl, ?_⟩
  have := Real.tan_arctan t
  rw [Real.tan_eq_sin_div_cos, div_eq_iff (Real.cos_arctan_pos t).ne'] at this
  exact this

theorem isAngle_front {x y : ℝ} (hx : 0 < x) : IsAngle (Real.arctan (y / x)) x y := by
  obtain ⟨c, hc, h1, h2⟩ := cos_sin_arctan (y / x)
  have a := Real.arctan_lt_pi_div_two (y / x)
  have b := Real.neg_pi_div_two_lt_arctan (y / x)
  refine ⟨abs_le.2 ⟨by linarith [Real.pi_pos], by linarith [Real.pi_pos]⟩, x / c, by positivity, ?_, ?_⟩
  · rw [h1]; field_simp
  · rw [h2]; field_simp

theorem isAngle_back {x y : ℝ} (hx : x < 0) (neg : Bool) (h1 : y < 0 → neg = true) (h2 : 0 < y → neg = false) :
    IsAngle ((if neg then -Real.pi else Real.pi) + Real.arctan (y / x)) x y := by
  obtain ⟨c, hc, e1, e2⟩ := cos_sin_arctan (y / x)
  have a := Real.arctan_lt_pi_div_two (y / x)
  have b := Real.neg_pi_div_two_lt_arctan (y / x)
  have hr : 0 < -x / c := div_pos (by linarith) hc
  have hx' := hx.ne
  cases neg with
  | true =>
    have hy : y ≤ 0 := by
      by_contra hcon
      have := h2 (not_le.1 hcon)
      simp at this
    have ha : 0 ≤ Real.arctan (y / x) := by
      rw [← Real.arctan_zero]
      exact Real.arctan_strictMono.monotone (div_nonneg_of_nonpos hy hx.le)
    refine ⟨abs_le.2 ⟨by simp only [if_true]; linarith, by simp only [if_true]; linarith [Real.pi_pos]⟩, -x / c, hr, ?_, ?_⟩
    · have : Real.cos (-Real.pi + Real.arctan (y / x)) = -c := by
        rw [add_comm, ← sub_eq_add_neg, Real.cos_sub_pi, e1]
      simp only [if_true, this]; field_simp
    · have : Real.sin (-Real.pi + Real.arctan (y / x)) = -(y / x * c) := by
        rw [add_comm, ← sub_eq_add_neg, Real.sin_sub_pi, e2]
      simp only [if_true, this]; field_simp
  | false =>
    have hy : 0 ≤ y := by
      by_contra hcon
      have := h1 (not_le.1 hcon)
      simp at this
    have ha : Real.arctan (y / x) ≤ 0 := by
      rw [← Real.arctan_zero]
      exact Real.arctan_strictMono.monotone (div_nonpos_of_nonneg_of_nonpos hy hx.le)
    refine ⟨abs_le.2 ⟨by simp only [Bool.false_eq_true, if_false]; linarith [Real.pi_pos], by simp only [Bool.false_eq_true, if_false]; linarith [Real.pi_pos]⟩, -x / c, hr, ?_, ?_⟩
    · have : Real.cos (Real.pi + Real.arctan (y / x)) = -c := by
        rw [add_comm, Real.cos_add_pi, e1]
      simp only [Bool.false_eq_true, if_false, this]; field_simp
    · have : Real.sin (Real.pi + Real.arctan (y / x)) = -(y / x * c) := by
        rw [add_comm, Real.sin_add_pi, e2]
      simp only [Bool.false_eq_true, if_false, this]; field_simp

theorem isAngle_side {x y : ℝ} (hy : y ≠ 0) : IsAngle ((if y < 0 then -(Real.pi / 2) else Real.pi / 2) - Real.arctan (x / y)) x y := by
  obtain ⟨c, hc, e1, e2⟩ := cos_sin_arctan (x / y)
  have a := Real.arctan_lt_pi_div_two (x / y)
  have b := Real.neg_pi_div_two_lt_arctan (x / y)
  rcases lt_or_gt_of_ne hy with h | h
  · rw [if_pos h]
    have hr : 0 < -y / c := div_pos (by linarith) hc
    refine ⟨abs_le.2 ⟨by linarith, by linarith⟩, -y / c, hr, ?_, ?_⟩
    · rw [show -(Real.pi / 2) - Real.arctan (x / y) = -(Real.pi / 2 + Real.arctan (x / y)) by ring, Real.cos_neg, add_comm, Real.cos_add_pi_div_two, e2]
      field_simp
    · rw [show -(Real.pi / 2) - Real.arctan (x / y) = -(Real.pi / 2 + Real.arctan (x / y)) by ring, Real.sin_neg, add_comm, Real.sin_add_pi_div_two, e1]
      field_simp
  · rw [if_neg (not_lt.2 h.le)]
    refine ⟨abs_le.2 ⟨by linarith, by linarith⟩, y / c, div_pos h hc, ?_, ?_⟩
    · rw [Real.cos_pi_div_two_sub, e2]; field_simp
    · rw [Real.sin_pi_div_two_sub, e1]; field_simp

/-- The sum of a rounded constant and an approximate arc tangent. -/
theorem add_err {K R b : ℚ} {k a d e : ℝ} (hK : |(K : ℝ) - k| ≤ d) (hR : |(R : ℝ) - a| ≤ e) (hb : |K + R| ≤ b) :
    |((fl (K + R) : ℚ) : ℝ) - (k + a)| ≤ d + e + b / 2 ^ 24 := by
  have h1 : |fl (K + R) - (K + R)| ≤ b / 2 ^ 24 := (fl_err _).trans (div_le_div_of_nonneg_right hb (by norm_num))
  have h2 := (Rat.cast_le (K := ℝ)).2 h1
  push_cast at h2
  have a1 := abs_le.1 hK
  have a2 := abs_le.1 hR
  have a3 := abs_le.1 h2
  rw [abs_le]
  constructor <;> linarith [a1.1, a1.2, a2.1, a2.2, a3.1, a3.2]

end SingleLidar

open SingleLidar

/-- C94: the angle computed for a point is within 2.8 microradians of an angle of the point, in every direction, unless `x` is a negative zero. -/
theorem C94_atan2_partial (y x : Single.Signed) (hy : y.Ok) (hx : x.Ok) (h0 : y.value ≠ 0 ∨ x.value ≠ 0) (hz : x.value = 0 → x.negative = false) :
    ∃ a θ, Single.approxAtan2 y x = some a ∧ IsAngle θ x.value y.value ∧ |(a : ℝ) - θ| ≤ angleError := by
  obtain ⟨y, yn⟩ := y
  obtain ⟨x, xn⟩ := x
  simp only [Single.Signed.Ok] at hy hx h0 hz ⊢
  have hw : worstCaseError + 62 / 10 / 2 ^ 24 ≤ angleError := by unfold worstCaseError angleError; norm_num
  unfold Single.approxAtan2
  dsimp only
  rw [if_neg (by tauto)]
  have div_bound : ∀ a b : ℚ, |a| ≤ |b| → |a / b| ≤ 1 := fun a b h => by
    rw [abs_div]; exact div_le_one_of_le₀ h (abs_nonneg _)
  have cast_neg : ∀ a : ℚ, (a : ℝ) < 0 ↔ a < 0 := fun a => by exact_mod_cast Iff.rfl
  have cast_pos : ∀ a : ℚ, 0 < (a : ℝ) ↔ 0 < a := fun a => by exact_mod_cast Iff.rfl
  by_cases hs : |x| < |y|
  · simp only [if_pos hs]
    have hy0 : y ≠ 0 := by rintro rfl; rw [abs_zero] at hs; exact absurd hs (not_lt.2 (abs_nonneg _))
    obtain ⟨e1, e2⟩ := atan_err (div_bound x y hs.le)
    set A := Single.approxAtan (fl (x / y)) with hA
    have eA := abs_le.1 e2
    have e1' : |((-A : ℚ) : ℝ) - (-Real.arctan (x / y : ℚ))| ≤ worstCaseError + 62 / 10 / 2 ^ 24 := by
      rw [Rat.cast_neg, neg_sub_neg, abs_sub_comm]; exact e1
    rw [Rat.cast_div] at e1 e1'
    have hang := isAngle_side (x := (x : ℝ)) (y := (y : ℝ)) (by exact_mod_cast hy0)
    refine ⟨_, _, rfl, hang, ?_⟩
    have k1 := kPi_err
    have k2 := kHalfPi_err
    have kb : Single.kPi ≤ 315 / 100 ∧ 314 / 100 ≤ Single.kPi := by norm_num [Single.kPi]
    have kh : Single.kHalfPi ≤ 158 / 100 ∧ 157 / 100 ≤ Single.kHalfPi := by norm_num [Single.kHalfPi]
    have k2' : |((-Single.kHalfPi : ℚ) : ℝ) - (-(Real.pi / 2))| ≤ 8 / 10 / 2 ^ 24 := by
      rw [Rat.cast_neg, neg_sub_neg, abs_sub_comm]; exact k2
    have k1' : |((-Single.kPi : ℚ) : ℝ) - (-Real.pi)| ≤ 15 / 10 / 2 ^ 24 := by
      rw [Rat.cast_neg, neg_sub_neg, abs_sub_comm]; exact k1
    have m1 := add_err (b := 258 / 100) k2 e1' (abs_le.2 ⟨by linarith, by linarith⟩)
    have m2 := add_err (b := 258 / 100) k2' e1' (abs_le.2 ⟨by linarith, by linarith⟩)
    have b1 : 0 ≤ fl (Single.kHalfPi + -A) ∧ fl (Single.kHalfPi + -A) ≤ 26 / 10 := by
      have := abs_le.1 (fl_err (Single.kHalfPi + -A))
      rw [abs_of_pos (a := Single.kHalfPi + -A) (by linarith)] at this
      constructor <;> linarith [this.1, this.2]
    have e3 : fl (-Single.kHalfPi + -A) = -fl (Single.kHalfPi + A) := by rw [← fl_neg]; congr 1; ring
    have b2 : 0 ≤ fl (Single.kHalfPi + A) ∧ fl (Single.kHalfPi + A) ≤ 26 / 10 := by
      have := abs_le.1 (fl_err (Single.kHalfPi + A))
      rw [abs_of_pos (a := Single.kHalfPi + A) (by linarith)] at this
      constructor <;> linarith [this.1, this.2]
    have m3 := add_err (b := 315 / 100) k1' m1 (abs_le.2 ⟨by linarith [b1.1, b1.2], by linarith [b1.1, b1.2]⟩)
    have m4 := add_err (b := 315 / 100) k1 m2 (by rw [e3]; exact abs_le.2 ⟨by linarith [b2.1, b2.2], by linarith [b2.1, b2.2]⟩)
    rcases lt_or_gt_of_ne hy0 with h | h
    · obtain rfl : yn = true := hy.1 h
      rw [if_pos (by exact_mod_cast h : (y : ℝ) < 0)]
      by_cases hx1 : x < 0
      · obtain rfl : xn = true := hx.1 hx1
        rw [if_pos hx1]
        simp only [Single.copysign, Bool.xor_self, Bool.false_eq_true, if_false, if_true, sub_eq_add_neg (Single.kHalfPi)]
        rw [show -(Real.pi / 2) - Real.arctan ((x : ℝ) / y) = -Real.pi + (Real.pi / 2 + -Real.arctan ((x : ℝ) / y)) by ring]
        refine m3.trans ?_
        unfold worstCaseError angleError; norm_num
      · have hxn : xn = false := by
          rcases lt_or_eq_of_le (not_lt.1 hx1) with h | h
          · exact hx.2 h
          · exact hz h.symm
        subst hxn
        rw [if_neg hx1]
        simp only [Single.copysign, Bool.false_xor, if_true, sub_eq_add_neg]
        refine m2.trans ?_
        unfold worstCaseError angleError; norm_num
    · obtain rfl : yn = false := hy.2 h
      rw [if_neg (not_lt.2 (by exact_mod_cast h.le : (0 : ℝ) ≤ (y : ℝ)))]
      by_cases hx1 : x < 0
      · obtain rfl : xn = true := hx.1 hx1
        rw [if_pos hx1]
        simp only [Single.copysign, Bool.xor_false, Bool.false_eq_true, if_false, if_true, sub_eq_add_neg (-Single.kHalfPi)]
        rw [show Real.pi / 2 - Real.arctan ((x : ℝ) / y) = Real.pi + (-(Real.pi / 2) + -Real.arctan ((x : ℝ) / y)) by ring]
        refine m4.trans ?_
        unfold worstCaseError angleError; norm_num
      · have hxn : xn = false := by
          rcases lt_or_eq_of_le (not_lt.1 hx1) with h | h
          · exact hx.2 h
          · exact hz h.symm
        subst hxn
        rw [if_neg hx1]
        simp only [Single.copysign, Bool.xor_self, Bool.false_eq_true, if_false, sub_eq_add_neg]
        refine m1.trans ?_
        unfold worstCaseError angleError; norm_num
  · simp only [if_neg hs]
    have hx0 : x ≠ 0 := by
      rintro rfl
      rw [abs_zero] at hs
      rcases h0 with h | h
      · exact hs (abs_pos.2 h)
      · exact h rfl
    obtain ⟨e1, e2⟩ := atan_err (div_bound y x (not_lt.1 hs))
    set A := Single.approxAtan (fl (y / x)) with hA
    have eA := abs_le.1 e2
    rw [Rat.cast_div] at e1
    rcases lt_or_gt_of_ne hx0 with h | h
    · rw [if_pos h]
      have hang := isAngle_back (x := (x : ℝ)) (y := (y : ℝ)) (by exact_mod_cast h) yn (fun h => hy.1 (by exact_mod_cast h)) (fun h => hy.2 (by exact_mod_cast h))
      refine ⟨_, _, rfl, hang, ?_⟩
      have kb : Single.kPi ≤ 315 / 100 ∧ 314 / 100 ≤ Single.kPi := by norm_num [Single.kPi]
      have k1 := kPi_err
      have k1' : |((-Single.kPi : ℚ) : ℝ) - (-Real.pi)| ≤ 15 / 10 / 2 ^ 24 := by
        rw [Rat.cast_neg, neg_sub_neg, abs_sub_comm]; exact k1
      cases yn with
      | true =>
        simp only [Single.copysign, if_true]
        refine (add_err (b := 415 / 100) k1' e1 (abs_le.2 ⟨by linarith, by linarith⟩)).trans ?_
        unfold worstCaseError angleError; norm_num
      | false =>
        simp only [Single.copysign, Bool.false_eq_true, if_false]
        refine (add_err (b := 415 / 100) k1 e1 (abs_le.2 ⟨by linarith, by linarith⟩)).trans ?_
        unfold worstCaseError angleError; norm_num
    · rw [if_neg (not_lt.2 h.le)]
      exact ⟨_, _, rfl, isAngle_front (by exact_mod_cast h), e1.trans hw⟩

namespace SingleLidar
open PolyBound SingleMeasurement

/-- The value of a polynomial at a rational number. -/
def evalQ : List ℚ → ℚ → ℚ
  | [], _ => 0
  | c :: p, x => c + x * evalQ p x

theorem evalQ_cast (p : List ℚ) (x : ℚ) : eval p (x : ℝ) = ((evalQ p x : ℚ) : ℝ) := by
  induction p with
  | nil => simp [eval, evalQ]
  | cons c p ih => simp [eval, evalQ, ih]

theorem IsAngle.front {θ x y : ℝ} (h : IsAngle θ x y) (hx : 0 < x) : θ = Real.arctan (y / x) := by
  obtain ⟨h1, r, hr, rfl, rfl⟩ := h
  have hc : 0 < Real.cos θ := by
    by_contra hcon
    exact absurd hx (not_lt.2 (mul_nonpos_of_nonneg_of_nonpos hr.le (not_lt.1 hcon)))
  have a := abs_le.1 h1
  have h2 : θ < Real.pi / 2 := by
    by_contra hcon
    exact absurd hc (not_lt.2 (Real.cos_nonpos_of_pi_div_two_le_of_le (not_lt.1 hcon) (by linarith [Real.pi_pos])))
  have h3 : -(Real.pi / 2) < θ := by
    by_contra hcon
    rw [← Real.cos_neg] at hc
    exact absurd hc (not_lt.2 (Real.cos_nonpos_of_pi_div_two_le_of_le (by linarith) (by linarith [Real.pi_pos])))
  rw [mul_div_mul_left _ _ hr.ne', ← Real.tan_eq_sin_div_cos, Real.arctan_tan h3 h2]

theorem IsAngle.behind {θ x y : ℝ} (h : IsAngle θ x y) (hx : x < 0) (hy : y < 0) : θ = Real.arctan (y / x) - Real.pi := by
  obtain ⟨h1, r, hr, e1, e2⟩ := h
  have a := abs_le.1 h1
  have hn : θ < 0 := by
    by_contra hcon
    have := mul_nonneg hr.le (Real.sin_nonneg_of_nonneg_of_le_pi (not_lt.1 hcon) a.2)
    linarith
  have h2 : IsAngle (θ + Real.pi) (-x) (-y) := by
    refine ⟨abs_le.2 ⟨by linarith [Real.pi_pos], by linarith⟩, r, hr, ?_, ?_⟩
    · rw [Real.cos_add_pi, e1]; ring
    · rw [Real.sin_add_pi, e2]; ring
  have := h2.front (by linarith)
  rw [neg_div_neg_eq] at this
  linarith

theorem IsAngle.up {θ y : ℝ} (h : IsAngle θ 0 y) (hy : 0 < y) : θ = Real.pi / 2 := by
  obtain ⟨h1, r, hr, e1, e2⟩ := h
  have a := abs_le.1 h1
  have hc : Real.cos θ = 0 := by
    rcases mul_eq_zero.1 e1.symm with h | h
    · exact absurd h hr.ne'
    · exact h
  have hp : 0 ≤ θ := by
    by_contra hcon
    have := mul_nonpos_of_nonneg_of_nonpos hr.le (Real.sin_nonpos_of_nonpos_of_neg_pi_le (by linarith) a.1)
    linarith
  exact Real.injOn_cos ⟨hp, a.2⟩ ⟨by linarith [Real.pi_pos], by linarith [Real.pi_pos]⟩ (by rw [hc, Real.cos_pi_div_two])

theorem arctan_scale (u l : ℝ) (hl : 1 / 2 ≤ l) : |Real.arctan (l * u) - Real.arctan u| ≤ |l - 1| := by
  have hd : ∀ s : ℝ, HasDerivAt (fun s => Real.arctan (s * u)) (1 / (1 + (s * u) ^ 2) * u) s := fun s => by
    have h : HasDerivAt (fun s => s * u) u s := hasDerivAt_mul_const u
    exact h.arctan
  have h := Convex.norm_image_sub_le_of_norm_hasDerivWithin_le (f := fun s => Real.arctan (s * u)) (s := Set.Ici (1 / 2 : ℝ)) (C := 1) (x := 1) (y := l)
    (fun s _ => (hd s).hasDerivWithinAt) (fun s hs => by
      have hs' : (1 / 2 : ℝ) ≤ s := hs
      have hp : 0 < 1 + (s * u) ^ 2 := by positivity
      rw [Real.norm_eq_abs, abs_mul, abs_of_pos (by positivity : 0 < 1 / (1 + (s * u) ^ 2)), div_mul_eq_mul_div, one_mul, div_le_one hp]
      have h2 : |u| * (1 / 2) ≤ |u| * s := mul_le_mul_of_nonneg_left hs' (abs_nonneg u)
      have h3 : (s * u) ^ 2 = (|u| * s) ^ 2 := by rw [mul_pow, mul_pow, sq_abs]; ring
      rw [h3]
      nlinarith [sq_nonneg (|u| * s - 1)]) (convex_Ici _) (by norm_num : (1 : ℝ) ∈ Set.Ici (1 / 2)) hl
  simpa [Real.norm_eq_abs] using h

theorem sqrt_close {s S : ℝ} (hs : 0 ≤ s) (h : |S - s| ≤ 31 / 10 / 2 ^ 24 * s) : |Real.sqrt S - Real.sqrt s| ≤ 17 / 10 / 2 ^ 24 * Real.sqrt s := by
  have a := abs_le.1 h
  have hS : 81 / 100 * s ≤ S := by norm_num at a; linarith [a.1]
  have hS0 : 0 ≤ S := by linarith
  have h1 : 9 / 10 * Real.sqrt s ≤ Real.sqrt S := by
    have := Real.sqrt_le_sqrt hS
    rwa [Real.sqrt_mul (by norm_num), show (81 / 100 : ℝ) = (9 / 10) ^ 2 by norm_num, Real.sqrt_sq (by norm_num)] at this
  have e1 := Real.mul_self_sqrt hs
  have e2 := Real.mul_self_sqrt hS0
  have n1 := Real.sqrt_nonneg s
  have n2 := Real.sqrt_nonneg S
  rcases hs.eq_or_lt with h0 | h0
  · subst h0
    have : S = 0 := by norm_num at h; exact h
    subst this
    simp
  have hp := Real.sqrt_pos.2 h0
  generalize Real.sqrt s = r at *
  generalize Real.sqrt S = R at *
  have e : (R - r) * (R + r) = S - s := by nlinarith
  rw [← e, abs_mul, abs_of_pos (a := R + r) (by linarith), ← e1] at h
  have h2 : |R - r| * (19 / 10 * r) ≤ |R - r| * (R + r) := mul_le_mul_of_nonneg_left (by linarith) (abs_nonneg _)
  have h3 : |R - r| * (19 / 10) * r ≤ 31 / 10 / 2 ^ 24 * r * r := by nlinarith
  have h4 := le_of_mul_le_mul_right h3 hp
  linarith

/-- A square root of a rounded sum. -/
theorem norm_close {sqrtF : ℚ → ℚ} (hs : IsSqrtSingle sqrtF) {s S : ℚ} (hs0 : 0 ≤ s) (h : |S - s| ≤ 31 / 10 / 2 ^ 24 * s) :
    |((sqrtF S : ℚ) : ℝ) - Real.sqrt s| ≤ 3 / 2 ^ 24 * Real.sqrt s := by
  have a := abs_le.1 h
  have hS : 0 ≤ S := by norm_num at a; linarith [a.1]
  have h1 := hs S hS
  have h2 : |((S : ℚ) : ℝ) - s| ≤ 31 / 10 / 2 ^ 24 * s := by
    have := (Rat.cast_le (K := ℝ)).2 h
    push_cast at this
    exact this
  have h3 := sqrt_close (by exact_mod_cast hs0) h2
  have n1 := Real.sqrt_nonneg (s : ℝ)
  generalize Real.sqrt (s : ℝ) = r at *
  generalize Real.sqrt (S : ℝ) = R at *
  have b1 := abs_le.1 h1
  have b3 := abs_le.1 h3
  norm_num at *
  rw [abs_le]
  constructor <;> linarith [b1.1, b1.2, b3.1, b3.2]

/-- Rounded sums of terms that are not negative. -/
theorem sum_close {a b A B k : ℚ} (ha : 0 ≤ a) (hb : 0 ≤ b) (hA : |A - a| ≤ k / 2 ^ 24 * a) (hB : |B - b| ≤ k / 2 ^ 24 * b) (hk0 : 0 ≤ k) (hk : k ≤ 3) :
    |fl (A + B) - (a + b)| ≤ (k + 101 / 100) / 2 ^ 24 * (a + b) := by
  have h1 := fl_err (A + B)
  have h2 : |A + B - (a + b)| ≤ k / 2 ^ 24 * (a + b) := by
    have e : A + B - (a + b) = (A - a) + (B - b) := by ring
    rw [e]
    refine (abs_add_le _ _).trans ?_
    linarith
  have h3 : |A + B| ≤ (a + b) + k / 2 ^ 24 * (a + b) := by
    have := abs_add_le (A + B - (a + b)) (a + b)
    rw [sub_add_cancel, abs_of_nonneg (a := a + b) (by linarith)] at this
    linarith
  have h4 := abs_add_le (fl (A + B) - (A + B)) (A + B - (a + b))
  rw [sub_add_sub_cancel] at h4
  have h5 : k / 2 ^ 24 * (a + b) ≤ 3 / 2 ^ 24 * (a + b) := mul_le_mul_of_nonneg_right (by linarith) (by linarith)
  have e : (k + 101 / 100) / 2 ^ 24 * (a + b) = k / 2 ^ 24 * (a + b) + 101 / 100 / 2 ^ 24 * (a + b) := by ring
  rw [e]
  have hs0 : 0 ≤ a + b := by linarith
  generalize a + b = s at *
  norm_num at *
  linarith

theorem square_close (x : ℚ) : |fl (x * x) - x * x| ≤ 1 / 2 ^ 24 * (x * x) := by
  have := fl_err (x * x)
  rw [abs_of_nonneg (a := x * x) (mul_self_nonneg x)] at this
  linarith

theorem planar_close {sqrtF : ℚ → ℚ} (hs : IsSqrtSingle sqrtF) (p : Point 3) :
    |((Single.planarNorm sqrtF p : ℚ) : ℝ) - Real.sqrt ((p 0 * p 0 + p 1 * p 1 : ℚ) : ℝ)| ≤ 3 / 2 ^ 24 * Real.sqrt ((p 0 * p 0 + p 1 * p 1 : ℚ) : ℝ) := by
  have n0 := mul_self_nonneg (p 0)
  have n1 := mul_self_nonneg (p 1)
  refine norm_close hs (by linarith) ?_
  refine (sum_close n0 n1 (square_close _) (square_close _) (by norm_num) (by norm_num)).trans ?_
  exact mul_le_mul_of_nonneg_right (by norm_num) (by linarith)

end SingleLidar

open SingleLidar SingleMeasurement

/-- The range computed for a point has a relative error of at most `3 / 2 ^ 24`. -/
theorem C94_range (sqrtF : ℚ → ℚ) (hs : IsSqrtSingle sqrtF) (p : Point 3) :
    |((Single.sphericalDepth sqrtF p : ℚ) : ℝ) - norm3 fun k => p k| ≤ 3 / 2 ^ 24 * norm3 fun k => p k := by
  have n0 := mul_self_nonneg (p 0)
  have n1 := mul_self_nonneg (p 1)
  have n2 := mul_self_nonneg (p 2)
  have e : norm3 (fun k => (p k : ℝ)) = Real.sqrt ((p 0 * p 0 + (p 1 * p 1 + p 2 * p 2) : ℚ) : ℝ) := by
    unfold norm3
    push_cast
    rw [add_assoc]
  rw [e]
  refine norm_close hs (by linarith) ?_
  have h1 := sum_close n1 n2 (square_close _) (square_close _) (by norm_num) (by norm_num)
  have h0 : |fl (p 0 * p 0) - p 0 * p 0| ≤ (1 + 101 / 100) / 2 ^ 24 * (p 0 * p 0) := (square_close _).trans (mul_le_mul_of_nonneg_right (by norm_num) n0)
  refine (sum_close n0 (by linarith) h0 h1 (by norm_num) (by norm_num)).trans ?_
  exact mul_le_mul_of_nonneg_right (by norm_num) (by linarith)

/-- The elevation and azimuth computed for a point off the vertical axis, unless its first coordinate is a negative zero. -/
theorem C94_angles_partial (sqrtF : ℚ → ℚ) (hs : IsSqrtSingle sqrtF) (p : Fin 3 → Single.Signed) (hp : ∀ k, (p k).Ok)
    (haxis : (p 1).value ≠ 0 ∨ (p 0).value ≠ 0) (hz : (p 0).value = 0 → (p 0).negative = false) :
    ∃ c elevation azimuth, Single.sphericalToImage sqrtF p = some c ∧
      IsAngle elevation (Wavemap.planarNorm fun k => (p k).value) (p 2).value ∧ |(c 0 : ℝ) - elevation| ≤ elevationError ∧
      IsAngle azimuth (p 0).value (p 1).value ∧ |(c 1 : ℝ) - azimuth| ≤ angleError := by
  obtain ⟨a, az, h1, h2, h3⟩ := C94_atan2_partial (p 1) (p 0) (hp 1) (hp 0) haxis hz
  have hpl := planar_close hs fun k => (p k).value
  have er : Wavemap.planarNorm (fun k => ((p k).value : ℝ)) = Real.sqrt (((p 0).value * (p 0).value + (p 1).value * (p 1).value : ℚ) : ℝ) := by
    unfold Wavemap.planarNorm
    push_cast
    rfl
  have hr : 0 < Wavemap.planarNorm (fun k => ((p k).value : ℝ)) := by
    rw [er]
    refine Real.sqrt_pos.2 ?_
    have : 0 < (p 0).value * (p 0).value + (p 1).value * (p 1).value := by
      rcases haxis with h | h
      · have := mul_self_pos.2 h
        nlinarith [mul_self_nonneg (p 0).value]
      · have := mul_self_pos.2 h
        nlinarith [mul_self_nonneg (p 1).value]
    exact_mod_cast this
  rw [← er] at hpl
  set r := Wavemap.planarNorm (fun k => ((p k).value : ℝ)) with hrdef
  set P := Single.planarNorm sqrtF (fun k => (p k).value) with hP
  have bp := abs_le.1 hpl
  have hPr : 9 / 10 * r ≤ (P : ℝ) := by norm_num at bp; linarith [bp.1]
  have hP0R : (0 : ℝ) < P := by linarith
  have hP0 : 0 < P := by exact_mod_cast hP0R
  have hOk : (Single.Signed.of P).Ok := by
    constructor
    · intro h; exact absurd h (not_lt.2 hP0.le)
    · intro _
      simp only [Single.Signed.of, decide_eq_false_iff_not, not_lt]
      exact hP0.le
  obtain ⟨e, el, g1, g2, g3⟩ := C94_atan2_partial (p 2) (Single.Signed.of P) (hp 2) hOk (Or.inr hP0.ne') (fun h => absurd h hP0.ne')
  refine ⟨![e, a], Real.arctan ((p 2).value / r), az, ?_, isAngle_front hr, ?_, h2, h3⟩
  · unfold Single.sphericalToImage
    rw [← hP, g1, h1]
    rfl
  · have g4 := g2.front (show (0 : ℝ) < ((Single.Signed.of P).value : ℚ) from hP0R)
    have hl : r / P * ((p 2).value / r) = (p 2).value / P := by field_simp
    have g5 := arctan_scale ((p 2).value / r) (r / P) (by
      rw [le_div_iff₀ hP0R]
      norm_num at bp
      linarith [bp.2])
    rw [hl] at g5
    have g6 : |r / P - 1| ≤ 31 / 10 / 2 ^ 24 := by
      rw [div_sub_one hP0R.ne', abs_div, abs_of_pos hP0R, div_le_iff₀ hP0R, abs_sub_comm]
      refine hpl.trans ?_
      norm_num at bp ⊢
      linarith [bp.1]
    rw [g4] at g3
    have b1 := abs_le.1 g3
    have b2 := abs_le.1 (g5.trans g6)
    show |((e : ℚ) : ℝ) - _| ≤ _
    have e1 : ((Single.Signed.of P).value : ℚ) = P := rfl
    rw [e1] at b1
    unfold angleError at b1
    unfold elevationError
    rw [abs_le]
    norm_num at *
    constructor <;> linarith [b1.1, b1.2, b2.1, b2.2]

namespace SingleLidar

theorem Signed.of_ok (x : ℚ) : (Single.Signed.of x).Ok := by
  constructor
  · intro h; simpa [Single.Signed.of] using h
  · intro h
    simp only [Single.Signed.of, decide_eq_false_iff_not, not_lt]
    exact le_of_lt h

end SingleLidar

/-- The Ouster projection: the elevation and the range are those of a point in the plane of the beam that is as near to the exact one as rounding allows. -/
theorem C94_ouster_partial (sqrtF : ℚ → ℚ) (hs : IsSqrtSingle sqrtF) (o : Single.OusterOffsets) (p : Fin 3 → Single.Signed) (hp : ∀ k, (p k).Ok)
    (haxis : (p 1).value ≠ 0 ∨ (p 0).value ≠ 0) (hz : (p 0).value = 0 → (p 0).negative = false) (horigin : (p 2).value ≠ o.z) :
    ∃ (c : Point 2) (b : Point 2) (elevation azimuth : ℝ), Single.ousterToImage sqrtF o p = some c ∧
      |(b 0 : ℝ) - ((Wavemap.planarNorm fun k => (p k).value) - o.beam)| ≤ (5 * (Wavemap.planarNorm fun k => (p k).value) + |(o.beam : ℝ)|) / 2 ^ 24 ∧
      |b 1 - ((p 2).value - o.z)| ≤ |(p 2).value - o.z| / 2 ^ 24 ∧
      IsAngle elevation (b 0) (b 1) ∧ |(c 0 : ℝ) - elevation| ≤ angleError ∧
      IsAngle azimuth (p 0).value (p 1).value ∧ |(c 1 : ℝ) - azimuth| ≤ angleError ∧
      |((Single.ousterDepth sqrtF o fun k => (p k).value : ℚ) : ℝ) - Real.sqrt ((b 0 * b 0 + b 1 * b 1 : ℚ) : ℝ)| ≤ 3 / 2 ^ 24 * Real.sqrt ((b 0 * b 0 + b 1 * b 1 : ℚ) : ℝ) := by
  obtain ⟨a, az, h1, h2, h3⟩ := C94_atan2_partial (p 1) (p 0) (hp 1) (hp 0) haxis hz
  have hpl := planar_close hs fun k => (p k).value
  have er : Wavemap.planarNorm (fun k => ((p k).value : ℝ)) = Real.sqrt (((p 0).value * (p 0).value + (p 1).value * (p 1).value : ℚ) : ℝ) := by
    unfold Wavemap.planarNorm
    push_cast
    rfl
  rw [← er] at hpl
  have hr0 : 0 ≤ Wavemap.planarNorm (fun k => ((p k).value : ℝ)) := Real.sqrt_nonneg _
  set b := Single.ousterBeamPoint sqrtF o fun k => (p k).value with hb
  have b0 : b 0 = fl (Single.planarNorm sqrtF (fun k => (p k).value) - o.beam) := rfl
  have b1 : b 1 = fl ((p 2).value - o.z) := rfl
  have hb1 : b 1 ≠ 0 := by
    rw [b1]
    intro h
    have := fl_err ((p 2).value - o.z)
    rw [h, zero_sub, abs_neg] at this
    have hpos := abs_pos.2 (sub_ne_zero.2 horigin)
    linarith
  obtain ⟨e, el, g1, g2, g3⟩ := C94_atan2_partial (Single.Signed.of (b 1)) (Single.Signed.of (b 0)) (Signed.of_ok _) (Signed.of_ok _) (Or.inl hb1)
    (fun h => by have h' : b 0 = 0 := h; simp [Single.Signed.of, h'])
  refine ⟨![e, a], b, el, az, ?_, ?_, ?_, g2, g3, h2, h3, ?_⟩
  · unfold Single.ousterToImage
    dsimp only
    rw [← hb, h1, g1]
    rfl
  · rw [b0]
    have f := fl_err (Single.planarNorm sqrtF (fun k => (p k).value) - o.beam)
    have fR := (Rat.cast_le (K := ℝ)).2 f
    push_cast at fR
    generalize ((fl (Single.planarNorm sqrtF (fun k => (p k).value) - o.beam) : ℚ) : ℝ) = F at *
    generalize ((Single.planarNorm sqrtF (fun k => (p k).value) : ℚ) : ℝ) = P at *
    generalize Wavemap.planarNorm (fun k => ((p k).value : ℝ)) = r at *
    have t1 := abs_le.1 hpl
    have t2 : |P - (o.beam : ℝ)| ≤ 11 / 10 * r + |(o.beam : ℝ)| := by
      refine (abs_sub _ _).trans ?_
      have : |P| ≤ 11 / 10 * r := by
        norm_num at t1
        rw [abs_le]
        constructor <;> linarith [t1.1, t1.2]
      linarith
    have t3 := abs_le.1 fR
    norm_num at *
    rw [abs_le]
    constructor <;> linarith [t1.1, t1.2, t3.1, t3.2]
  · rw [b1]; exact fl_err _
  · have n0 := mul_self_nonneg (b 0)
    have n1 := mul_self_nonneg (b 1)
    refine norm_close hs (by linarith) ?_
    refine (sum_close n0 n1 (square_close _) (square_close _) (by norm_num) (by norm_num)).trans ?_
    exact mul_le_mul_of_nonneg_right (by norm_num) (by linarith)

/-- A point on the vertical axis has no azimuth. -/
theorem C94_axis (sqrtF : ℚ → ℚ) (p : Fin 3 → Single.Signed) (h0 : (p 0).value = 0) (h1 : (p 1).value = 0) : Single.sphericalToImage sqrtF p = none := by
  unfold Single.sphericalToImage
  have : Single.approxAtan2 (p 1) (p 0) = none := by
    unfold Single.approxAtan2
    rw [if_pos ⟨h1, h0⟩]
  rw [this]
  cases Single.approxAtan2 (p 2) (Single.Signed.of (Single.planarNorm sqrtF fun k => (p k).value)) <;> rfl

/-- The centre of the pixel chosen for a point is within half a pixel and 6 microradians of its elevation and of its azimuth. -/
theorem C94_pixel_partial (sqrtF : ℚ → ℚ) (hs : IsSqrtSingle sqrtF) (g : Single.Grid) (hg : ∀ i, 0 < g.scale i ∧ |g.offset i| ≤ 32 / 10) (p : Fin 3 → Single.Signed)
    (hp : ∀ k, (p k).Ok) (haxis : (p 1).value ≠ 0 ∨ (p 0).value ≠ 0) (hz : (p 0).value = 0 → (p 0).negative = false) :
    ∃ i elevation azimuth, Single.sphericalToNearestIndex sqrtF g p = some i ∧
      IsAngle elevation (Wavemap.planarNorm fun k => (p k).value) (p 2).value ∧ |((i 0 * g.scale 0 + g.offset 0 : ℚ) : ℝ) - elevation| ≤ (g.scale 0 / 2 : ℚ) + 6 / 10 ^ 6 ∧
      IsAngle azimuth (p 0).value (p 1).value ∧ |((i 1 * g.scale 1 + g.offset 1 : ℚ) : ℝ) - azimuth| ≤ (g.scale 1 / 2 : ℚ) + 6 / 10 ^ 6 := by
  obtain ⟨c, el, az, h1, h2, h3, h4, h5⟩ := C94_angles_partial sqrtF hs p hp haxis hz
  have key : ∀ (k : Fin 2) (θ : ℝ), |θ| ≤ Real.pi → |(c k : ℝ) - θ| ≤ elevationError →
      |((g.imageToNearestIndex c k * g.scale k + g.offset k : ℚ) : ℝ) - θ| ≤ (g.scale k / 2 : ℚ) + 6 / 10 ^ 6 := by
    intro k θ b1 b2
    have hn := C90_nearest g c k (hg k).1
    have hnR := (Rat.cast_le (K := ℝ)).2 hn
    rw [Rat.cast_abs, Rat.cast_sub] at hnR
    have ho : |(g.offset k : ℝ)| ≤ 32 / 10 := by
      have := (Rat.cast_le (K := ℝ)).2 (hg k).2
      push_cast at this
      exact this
    have hpi := Real.pi_lt_d2
    unfold elevationError at b2
    have hd : ((3 * |c k - g.offset k| / 2 ^ 23 : ℚ) : ℝ) ≤ 3 / 10 ^ 6 := by
      push_cast
      have d1 := abs_le.1 b1
      have d2 := abs_le.1 b2
      have d3 := abs_le.1 ho
      have : |(c k : ℝ) - g.offset k| ≤ 7 := by
        rw [abs_le]
        constructor <;> linarith [d1.1, d1.2, d2.1, d2.2, d3.1, d3.2]
      linarith
    rw [Rat.cast_add (g.scale k / 2)] at hnR
    generalize ((g.imageToNearestIndex c k * g.scale k + g.offset k : ℚ) : ℝ) = X at *
    have d1 := abs_le.1 hnR
    have d2 := abs_le.1 b2
    rw [abs_le]
    constructor <;> linarith [d1.1, d1.2, d2.1, d2.2]
  refine ⟨g.imageToNearestIndex c, el, az, ?_, h2, key 0 el h2.1 h3, h4, key 1 az h4.1 (h5.trans ?_)⟩
  · unfold Single.sphericalToNearestIndex
    rw [h1]; rfl
  · unfold angleError elevationError; norm_num

/-- The worst case error that the code states, 1.908e-6, does not hold in single precision. -/
theorem C94_stated_error_fails : ∃ (y x : Single.Signed) (a : ℚ), y.Ok ∧ x.Ok ∧ IsFloat y.value ∧ IsFloat x.value ∧ Single.approxAtan2 y x = some a ∧
    ∀ θ, IsAngle θ x.value y.value → worstCaseError < |(a : ℝ) - θ| := by
  refine ⟨⟨-117, true⟩, ⟨-133, true⟩, -(20301348 / 8388608), ⟨by simp, by simp⟩, ⟨by simp, by simp⟩, ⟨-117, 0, by norm_num, by norm_num⟩,
    ⟨-133, 0, by norm_num, by norm_num⟩, by decide +kernel, ?_⟩
  intro θ h
  have h1 := h.behind (by norm_num) (by norm_num)
  have h2 := PolyBound.arctanPoly_close (x := ((117 / 133 : ℚ) : ℝ)) (by norm_num) (by norm_num)
  rw [evalQ_cast] at h2
  have h3 : evalQ PolyBound.arctanPoly (117 / 133) ≤ 721485334 / 1000000000 ∧ 721485328 / 1000000000 ≤ evalQ PolyBound.arctanPoly (117 / 133) := by decide +kernel
  have h4 := (Rat.cast_le (K := ℝ)).2 h3.1
  have h5 := (Rat.cast_le (K := ℝ)).2 h3.2
  have e : ((-117 : ℚ) : ℝ) / ((-133 : ℚ) : ℝ) = ((117 / 133 : ℚ) : ℝ) := by norm_num
  dsimp only at h1
  rw [e] at h1
  rw [h1]
  generalize ((evalQ PolyBound.arctanPoly (117 / 133) : ℚ) : ℝ) = E at *
  generalize Real.arctan ((117 / 133 : ℚ) : ℝ) = A at *
  have p1 := Real.pi_gt_d20
  have p2 := Real.pi_lt_d20
  have b := abs_le.1 h2
  unfold worstCaseError
  push_cast at *
  norm_num at *
  first
  | exact lt_of_lt_of_le (by linarith [b.1, b.2]) (le_abs_self _)
  | exact lt_of_lt_of_le (by linarith [b.1, b.2]) (neg_le_abs _)

/-- With a negative zero for `x` the angle is that of the opposite point. -/
theorem C94_negative_zero_fails : ∃ (y x : Single.Signed) (a : ℚ), y.Ok ∧ x.Ok ∧ IsFloat y.value ∧ IsFloat x.value ∧ Single.approxAtan2 y x = some a ∧
    ∀ θ, IsAngle θ x.value y.value → 3 < |(a : ℝ) - θ| := by
  refine ⟨⟨1, false⟩, ⟨0, true⟩, -Single.kHalfPi, ⟨by simp, by simp⟩, ⟨by simp, by simp⟩, ⟨1, 0, by norm_num, by norm_num⟩, isFloat_zero, by decide +kernel, ?_⟩
  intro θ h
  dsimp only at h
  rw [Rat.cast_zero] at h
  rw [h.up (by norm_num)]
  have := Real.pi_gt_d2
  refine lt_of_lt_of_le ?_ (neg_le_abs _)
  unfold Single.kHalfPi
  push_cast
  linarith

/-! ## Examples -/

example : ∃ a θ, Single.approxAtan2 (Single.Signed.of (-3)) (Single.Signed.of (-2)) = some a ∧ IsAngle θ (-2 : ℚ) (-3 : ℚ) ∧ |(a : ℝ) - θ| ≤ angleError :=
  C94_atan2_partial _ _ (Signed.of_ok _) (Signed.of_ok _) (Or.inl (by decide +kernel)) (fun h => absurd h (by decide +kernel))

/-- A lidar with 64 beams between -0.4 and 0.4 and 1024 columns, and a point 10 m away. -/
example : ∃ i elevation azimuth, Single.sphericalToNearestIndex exampleSqrt (Single.Grid.lidar ![-2 / 5, -3] ![2 / 5, 3] ![64, 1024])
      ![Single.Signed.of (-6), Single.Signed.of 8, Single.Signed.of 1] = some i ∧
    IsAngle elevation 10 (1 : ℚ) ∧ |((i 0 * (Single.Grid.lidar ![-2 / 5, -3] ![2 / 5, 3] ![64, 1024]).scale 0 + -2 / 5 : ℚ) : ℝ) - elevation| ≤ 1 / 150 ∧
    IsAngle azimuth (-6 : ℚ) (8 : ℚ) ∧ |((i 1 * (Single.Grid.lidar ![-2 / 5, -3] ![2 / 5, 3] ![64, 1024]).scale 1 + -3 : ℚ) : ℝ) - azimuth| ≤ 1 / 300 := by
  have s0 : (Single.Grid.lidar ![-2 / 5, -3] ![2 / 5, 3] ![64, 1024]).scale 0 ≤ 13 / 1000 ∧ 0 < (Single.Grid.lidar ![-2 / 5, -3] ![2 / 5, 3] ![64, 1024]).scale 0 := by
    decide +kernel
  have s1 : (Single.Grid.lidar ![-2 / 5, -3] ![2 / 5, 3] ![64, 1024]).scale 1 ≤ 6 / 1000 ∧ 0 < (Single.Grid.lidar ![-2 / 5, -3] ![2 / 5, 3] ![64, 1024]).scale 1 := by
    decide +kernel
  obtain ⟨i, el, az, h1, h2, h3, h4, h5⟩ := C94_pixel_partial exampleSqrt exampleSqrt_ok (Single.Grid.lidar ![-2 / 5, -3] ![2 / 5, 3] ![64, 1024])
    (by
      intro k
      fin_cases k
      · exact ⟨s0.2, by norm_num [Single.Grid.lidar, abs_of_neg]⟩
      · exact ⟨s1.2, by norm_num [Single.Grid.lidar, abs_of_neg]⟩)
    ![Single.Signed.of (-6), Single.Signed.of 8, Single.Signed.of 1]
    (by intro k; fin_cases k <;> exact Signed.of_ok _) (Or.inl (by decide +kernel)) (fun h => absurd h (by decide +kernel))
  have r0 := (Rat.cast_le (K := ℝ)).2 s0.1
  have r1 := (Rat.cast_le (K := ℝ)).2 s1.1
  have e10 : Wavemap.planarNorm (fun k => (((![Single.Signed.of (-6), Single.Signed.of 8, Single.Signed.of 1] : Fin 3 → Single.Signed) k).value : ℝ)) = 10 := by
    unfold Wavemap.planarNorm
    refine (congrArg Real.sqrt (?_ : _ = (10 : ℝ) * 10)).trans (Real.sqrt_mul_self (by norm_num))
    simp [Single.Signed.of]
    norm_num
  rw [e10] at h2
  refine ⟨i, el, az, h1, h2, h3.trans ?_, h4, h5.trans ?_⟩
  · push_cast at *
    linarith
  · push_cast at *
    linarith

example : ∃ (c b : Point 2) (elevation azimuth : ℝ), Single.ousterToImage exampleSqrt ⟨1 / 64, 1 / 32⟩ ![Single.Signed.of (-6), Single.Signed.of 8, Single.Signed.of 1] = some c ∧
    |b 1 - 31 / 32| ≤ 31 / 32 / 2 ^ 24 ∧ IsAngle elevation (b 0) (b 1) ∧ |(c 0 : ℝ) - elevation| ≤ angleError ∧
    IsAngle azimuth (-6 : ℚ) (8 : ℚ) ∧ |(c 1 : ℝ) - azimuth| ≤ angleError := by
  obtain ⟨c, b, el, az, h1, -, h2, h3, h4, h5, h6, -⟩ := C94_ouster_partial exampleSqrt exampleSqrt_ok ⟨1 / 64, 1 / 32⟩
    ![Single.Signed.of (-6), Single.Signed.of 8, Single.Signed.of 1] (by intro k; fin_cases k <;> exact Signed.of_ok _) (Or.inl (by decide +kernel))
    (fun h => absurd h (by decide +kernel)) (by decide +kernel)
  refine ⟨c, b, el, az, h1, ?_, h3, h4, h5, h6⟩
  have e : (((![Single.Signed.of (-6), Single.Signed.of 8, Single.Signed.of 1] : Fin 3 → Single.Signed) 2).value : ℚ) - 1 / 32 = 31 / 32 := by decide +kernel
  dsimp only at h2
  rw [e, abs_of_pos (a := (31 / 32 : ℚ)) (by norm_num)] at h2
  exact h2

end Wavemap
