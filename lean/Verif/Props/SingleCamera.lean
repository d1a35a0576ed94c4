import Verif.Model.SingleCamera
import Verif.Props.SinglePrecision
import Mathlib.Algebra.Order.Ring.Pow
import Mathlib.Data.Fintype.Basic
import Mathlib.Tactic.FinCases
/-!
# C90: image grids and the pinhole camera in single precision
-/
namespace Wavemap
namespace SingleCamera
open Single

/-! ## Products of rounding factors -/

/-- `t` is a product of at most `k` rounding factors and inverses of such. -/
def Sc (k : Nat) (t : ℚ) : Prop := (1 - 1 / 2 ^ 24) ^ k ≤ t ∧ t * (1 - 1 / 2 ^ 24) ^ k ≤ 1

theorem base_pos (k : Nat) : (0 : ℚ) < (1 - 1 / 2 ^ 24) ^ k := pow_pos (by norm_num) k

theorem Sc.pos {k : Nat} {t : ℚ} (h : Sc k t) : 0 < t := lt_of_lt_of_le (base_pos k) h.1

theorem Sc.mul {j k : Nat} {s t : ℚ} (hs : Sc j s) (ht : Sc k t) : Sc (j + k) (s * t) := by
  constructor
  · rw [pow_add]
    exact mul_le_mul hs.1 ht.1 (base_pos k).le hs.pos.le
  · rw [pow_add]
    calc s * t * ((1 - 1 / 2 ^ 24) ^ j * (1 - 1 / 2 ^ 24) ^ k) = (s * (1 - 1 / 2 ^ 24) ^ j) * (t * (1 - 1 / 2 ^ 24) ^ k) := by ring
      _ ≤ 1 * 1 := mul_le_mul hs.2 ht.2 (mul_nonneg ht.pos.le (base_pos k).le) (by norm_num)
      _ = 1 := by norm_num

theorem Sc.inv {k : Nat} {t : ℚ} (h : Sc k t) : Sc k t⁻¹ := by
  have ht := h.pos
  constructor
  · rw [← one_div, le_div_iff₀ ht]
    linarith [h.2, mul_comm t ((1 - 1 / 2 ^ 24) ^ k : ℚ)]
  · rw [inv_mul_le_iff₀ ht]
    linarith [h.1]

theorem Sc.err {k : Nat} {t : ℚ} (h : Sc k t) (hk : k ≤ 2 ^ 20) : |t - 1| ≤ k / 2 ^ 23 := by
  have hk' : (k : ℚ) ≤ 2 ^ 20 := by exact_mod_cast hk
  have hk0 : (0 : ℚ) ≤ k := by positivity
  have hb : 1 - (k : ℚ) / 2 ^ 24 ≤ (1 - 1 / 2 ^ 24) ^ k := by
    have := one_add_mul_le_pow (a := (-(1 / 2 ^ 24) : ℚ)) (by norm_num) k
    calc 1 - (k : ℚ) / 2 ^ 24 = 1 + k * -(1 / 2 ^ 24) := by ring
      _ ≤ _ := this
      _ = _ := by ring
  have ht := h.pos
  rw [abs_le]
  constructor
  · have := h.1
    linarith
  · have h2 : t * (1 - k / 2 ^ 24) ≤ 1 := (mul_le_mul_of_nonneg_left hb ht.le).trans h.2
    have h3 : (0 : ℚ) < 1 - k / 2 ^ 24 := by linarith
    have h4 : t ≤ 1 / (1 - k / 2 ^ 24) := by rwa [le_div_iff₀ h3]
    have h5 : 1 / (1 - (k : ℚ) / 2 ^ 24) ≤ 1 + k / 2 ^ 23 := by
      rw [div_le_iff₀ h3]
      nlinarith
    linarith

theorem fl_sc (x : ℚ) : ∃ t, Sc 1 t ∧ fl x = x * t := by
  obtain ⟨δ, hδ, h⟩ := fl_factor x
  refine ⟨1 + δ, ?_, h⟩
  rw [abs_le] at hδ
  constructor
  · rw [pow_one]; linarith [hδ.1]
  · rw [pow_one]; nlinarith [hδ.1, hδ.2]

/-- The effect of a factor on a value. -/
theorem Sc.apply {k : Nat} {t : ℚ} (h : Sc k t) (hk : k ≤ 2 ^ 20) (x : ℚ) : |x * t - x| ≤ k / 2 ^ 23 * |x| := by
  have : x * t - x = (t - 1) * x := by ring
  rw [this, abs_mul]
  exact mul_le_mul_of_nonneg_right (h.err hk) (abs_nonneg _)

/-! ## One axis of the camera -/

/-- Projection along one axis. -/
theorem project_axis (f x z c : ℚ) : |fl (fl (fl (f * x) / z) + c) - (f * x / z + c)| ≤ (3 * |f * x / z| + |c|) / 2 ^ 23 := by
  obtain ⟨t1, h1, e1⟩ := fl_sc (f * x)
  obtain ⟨t2, h2, e2⟩ := fl_sc (f * x * t1 / z)
  obtain ⟨t3, h3, e3⟩ := fl_sc (f * x * t1 / z * t2 + c)
  rw [e1, e2, e3]
  have hA := ((h1.mul h2).mul h3).apply (by norm_num) (f * x / z)
  have hC := h3.apply (by norm_num) c
  have e : (f * x * t1 / z * t2 + c) * t3 - (f * x / z + c) = (f * x / z * (t1 * t2 * t3) - f * x / z) + (c * t3 - c) := by ring
  rw [e]
  refine (abs_add_le _ _).trans ?_
  push_cast at hA hC
  linarith

/-- The point of an image coordinate along one axis, where `F` is `fxfy_`, `g` the other focal length and `s` the scaled depth. -/
theorem unproject_axis (f g u c w F : ℚ) (hf : 0 < f) (hg : 0 < g) (hF : F = fl (f * g)) : ∃ t1 t2 T, Sc 1 t1 ∧ Sc 1 t2 ∧ Sc 5 T ∧
    fl (fl (w * fl (1 / F)) * fl (fl (g * u) - fl (c * g))) = w / f * (u * t1 - c * t2) * T := by
  obtain ⟨t4, h4, e4⟩ := fl_sc (f * g)
  obtain ⟨t1, h1, e1⟩ := fl_sc (g * u)
  obtain ⟨t2, h2, e2⟩ := fl_sc (c * g)
  obtain ⟨t3, h3, e3⟩ := fl_sc (fl (g * u) - fl (c * g))
  obtain ⟨t5, h5, e5⟩ := fl_sc (1 / F)
  obtain ⟨t6, h6, e6⟩ := fl_sc (w * fl (1 / F))
  obtain ⟨t7, h7, e7⟩ := fl_sc (fl (w * fl (1 / F)) * fl (fl (g * u) - fl (c * g)))
  refine ⟨t1, t2, t4⁻¹ * t5 * t6 * t3 * t7, h1, h2, (((h4.inv.mul h5).mul h6).mul h3).mul h7, ?_⟩
  rw [e7, e6, e5, e3, e1, e2, hF, e4]
  have := h4.pos
  field_simp

theorem depth_axis (w F : ℚ) (hF : F ≠ 0) : ∃ T, Sc 3 T ∧ fl (fl (w * fl (1 / F)) * F) = w * T := by
  obtain ⟨t5, h5, e5⟩ := fl_sc (1 / F)
  obtain ⟨t6, h6, e6⟩ := fl_sc (w * fl (1 / F))
  obtain ⟨t8, h8, e8⟩ := fl_sc (fl (w * fl (1 / F)) * F)
  refine ⟨t5 * t6 * t8, (h5.mul h6).mul h8, ?_⟩
  rw [e8, e6, e5]
  field_simp

/-- A difference of two values with rounding factors. -/
theorem diff_axis {k : Nat} (hk : k ≤ 2 ^ 20) {s t : ℚ} (hs : Sc k s) (ht : Sc k t) (u c : ℚ) : |u * s - c * t - (u - c)| ≤ k / 2 ^ 23 * (|u| + |c|) := by
  have h1 := hs.apply hk u
  have h2 := ht.apply hk c
  have e : u * s - c * t - (u - c) = (u * s - u) - (c * t - c) := by ring
  rw [e]
  refine (abs_sub _ _).trans ?_
  linarith

theorem unproject_err (f g u c w F : ℚ) (hf : 0 < f) (hg : 0 < g) (hF : F = fl (f * g)) (hw : 0 ≤ w) :
    |fl (fl (w * fl (1 / F)) * fl (fl (g * u) - fl (c * g))) - w * (u - c) / f| ≤ 6 * w / f * (|u| + |c|) / 2 ^ 23 := by
  obtain ⟨t1, t2, T, h1, h2, hT, e⟩ := unproject_axis f g u c w F hf hg hF
  rw [e]
  have h := diff_axis (by norm_num) (h1.mul hT) (h2.mul hT) u c
  have e2 : w / f * (u * t1 - c * t2) * T - w * (u - c) / f = w / f * (u * (t1 * T) - c * (t2 * T) - (u - c)) := by ring
  have hwf : 0 ≤ w / f := div_nonneg hw hf.le
  rw [e2, abs_mul, abs_of_nonneg hwf]
  calc w / f * |u * (t1 * T) - c * (t2 * T) - (u - c)| ≤ w / f * ((1 + 5 : Nat) / 2 ^ 23 * (|u| + |c|)) := mul_le_mul_of_nonneg_left h hwf
    _ = _ := by push_cast; ring

theorem reproject_axis (f g u c w F : ℚ) (hf : 0 < f) (hg : 0 < g) (hF : F = fl (f * g)) (hw : 0 < w) :
    |fl (fl (fl (f * fl (fl (w * fl (1 / F)) * fl (fl (g * u) - fl (c * g)))) / fl (fl (w * fl (1 / F)) * F)) + c) - u| ≤ 14 * (|u| + |c|) / 2 ^ 23 := by
  obtain ⟨t1, t2, T, h1, h2, hT, e⟩ := unproject_axis f g u c w F hf hg hF
  have hF0 : F ≠ 0 := by
    obtain ⟨t, ht, et⟩ := fl_sc (f * g)
    rw [hF, et]
    exact (mul_pos (mul_pos hf hg) ht.pos).ne'
  obtain ⟨T3, hT3, e3⟩ := depth_axis w F hF0
  rw [e, e3]
  have hp := project_axis f (w / f * (u * t1 - c * t2) * T) (w * T3) c
  have hq : f * (w / f * (u * t1 - c * t2) * T) / (w * T3) = u * (t1 * T * T3⁻¹) - c * (t2 * T * T3⁻¹) := by
    have := hT3.pos
    field_simp
  rw [hq] at hp
  have hd := diff_axis (by norm_num) ((h1.mul hT).mul hT3.inv) ((h2.mul hT).mul hT3.inv) u c
  generalize u * (t1 * T * T3⁻¹) - c * (t2 * T * T3⁻¹) = A at hp hd
  generalize fl (fl (fl (f * (w / f * (u * t1 - c * t2) * T)) / (w * T3)) + c) = B at hp
  push_cast at hd
  have hA : |A| ≤ |u| + |c| + 9 / 2 ^ 23 * (|u| + |c|) := by
    have h1 : |A| ≤ |A - (u - c)| + |u - c| := by
      have := abs_add_le (A - (u - c)) (u - c)
      rwa [sub_add_cancel] at this
    have h2 := abs_sub u c
    linarith
  have h1 : |B - u| ≤ |B - (A + c)| + |A - (u - c)| := by
    have := abs_add_le (B - (A + c)) (A - (u - c))
    have e : B - (A + c) + (A - (u - c)) = B - u := by ring
    rwa [e] at this
  have hu := abs_nonneg u
  have hc := abs_nonneg c
  have : (3 * |A| + |c|) / 2 ^ 23 ≤ (3 * (|u| + |c| + 9 / 2 ^ 23 * (|u| + |c|)) + |c|) / 2 ^ 23 := by
    apply div_le_div_of_nonneg_right _ (by norm_num)
    linarith
  linarith

theorem point_axis (f g x z c F : ℚ) (hf : 0 < f) (hg : 0 < g) (hF : F = fl (f * g)) (hz : 0 < z) :
    |fl (fl (z * fl (1 / F)) * fl (fl (g * fl (fl (fl (f * x) / z) + c)) - fl (c * g))) - x| ≤ 14 * (|x| + |c| * z / f) / 2 ^ 23 := by
  have hp := project_axis f x z c
  have hu := unproject_err f g (fl (fl (fl (f * x) / z) + c)) c z F hf hg hF hz.le
  generalize fl (fl (fl (f * x) / z) + c) = u at hp hu
  generalize fl (fl (z * fl (1 / F)) * fl (fl (g * u) - fl (c * g))) = X at hu
  have hx : |x| = z / f * |f * x / z| := by
    rw [← abs_of_nonneg (a := z / f) (div_pos hz hf).le, ← abs_mul]
    congr 1
    field_simp
  have hm := abs_nonneg (f * x / z)
  have hcn := abs_nonneg c
  have hU : |u| ≤ |f * x / z| + |c| + (3 * |f * x / z| + |c|) / 2 ^ 23 := by
    have h1 := abs_add_le (u - (f * x / z + c)) (f * x / z + c)
    rw [sub_add_cancel] at h1
    have h2 := abs_add_le (f * x / z) c
    linarith
  have e : X - x = (X - z * (u - c) / f) + z / f * (u - (f * x / z + c)) := by
    field_simp
    ring
  rw [e]
  refine (abs_add_le _ _).trans ?_
  have hzf : 0 < z / f := div_pos hz hf
  rw [abs_mul, abs_of_nonneg (a := z / f) hzf.le, hx]
  have e1 : 6 * z / f * (|u| + |c|) / 2 ^ 23 = z / f * (6 * (|u| + |c|) / 2 ^ 23) := by ring
  have e2 : 14 * (z / f * |f * x / z| + |c| * z / f) / 2 ^ 23 = z / f * (14 * (|f * x / z| + |c|) / 2 ^ 23) := by ring
  rw [e1] at hu
  rw [e2]
  have h3 : 6 * (|u| + |c|) / 2 ^ 23 + |u - (f * x / z + c)| ≤ 14 * (|f * x / z| + |c|) / 2 ^ 23 := by
    linarith
  calc _ ≤ z / f * (6 * (|u| + |c|) / 2 ^ 23) + z / f * |u - (f * x / z + c)| := by linarith
    _ = z / f * (6 * (|u| + |c|) / 2 ^ 23 + |u - (f * x / z + c)|) := by ring
    _ ≤ _ := mul_le_mul_of_nonneg_left h3 hzf.le

theorem kEpsilon_pos : 0 < kEpsilon := by
  obtain ⟨t, ht, e⟩ := fl_sc (1 / 1000000)
  unfold kEpsilon
  rw [e]
  have := ht.pos
  positivity

theorem kEpsilon_le : kEpsilon ≤ 1 / 900000 := by
  have := (abs_le.mp (fl_err (1 / 1000000))).2
  unfold kEpsilon
  rw [abs_of_nonneg (by norm_num)] at this
  linarith

/-! ## One axis of an image grid -/

theorem real_axis (u o s : ℚ) : ∃ T, Sc 3 T ∧ fl (fl (u - o) * fl (1 / s)) = (u - o) / s * T := by
  obtain ⟨t1, h1, e1⟩ := fl_sc (u - o)
  obtain ⟨t2, h2, e2⟩ := fl_sc (1 / s)
  obtain ⟨t3, h3, e3⟩ := fl_sc (fl (u - o) * fl (1 / s))
  exact ⟨t1 * t2 * t3, (h1.mul h2).mul h3, by rw [e3, e1, e2]; ring⟩

theorem real_err (u o s : ℚ) : |fl (fl (u - o) * fl (1 / s)) - (u - o) / s| ≤ 3 / 2 ^ 23 * |(u - o) / s| := by
  obtain ⟨T, hT, e⟩ := real_axis u o s
  rw [e]
  exact_mod_cast hT.apply (by norm_num) _

theorem fl_nonneg' {x : ℚ} (h : 0 ≤ x) : 0 ≤ fl x := by
  obtain ⟨t, ht, e⟩ := fl_sc x
  rw [e]
  exact mul_nonneg h ht.pos.le

theorem fl_pos' {x : ℚ} (h : 0 < x) : 0 < fl x := by
  obtain ⟨t, ht, e⟩ := fl_sc x
  rw [e]
  exact mul_pos h ht.pos

end SingleCamera

open Single SingleCamera

/-! ## The pinhole camera -/

/-- The image coordinates of a point in front of the camera are those of the exact projection, up to a rounding error. -/
theorem C90_project (c : Pinhole) (p : Point 3) (hz : kEpsilon ≤ p 2) :
    |c.cartesianToImage p 0 - (c.fx * p 0 / p 2 + c.cx)| ≤ (3 * |c.fx * p 0 / p 2| + |c.cx|) / 2 ^ 23 ∧
    |c.cartesianToImage p 1 - (c.fy * p 1 / p 2 + c.cy)| ≤ (3 * |c.fy * p 1 / p 2| + |c.cy|) / 2 ^ 23 ∧ c.cartesianToSensorZ p = p 2 := by
  unfold Pinhole.cartesianToImage
  rw [max_eq_left hz]
  exact ⟨project_axis _ _ _ _, project_axis _ _ _ _, rfl⟩

/-- The pixel of a point in front of the camera is the one nearest to its exact projection, up to a rounding error. -/
theorem C90_pixel (c : Pinhole) (p : Point 3) (hz : kEpsilon ≤ p 2) :
    |c.cartesianToNearestIndex p 0 - (c.fx * p 0 / p 2 + c.cx)| ≤ 1 / 2 + (3 * |c.fx * p 0 / p 2| + |c.cx|) / 2 ^ 23 ∧
    |c.cartesianToNearestIndex p 1 - (c.fy * p 1 / p 2 + c.cy)| ≤ 1 / 2 + (3 * |c.fy * p 1 / p 2| + |c.cy|) / 2 ^ 23 := by
  have hi : ∀ i, c.cartesianToNearestIndex p i = cppRound (c.cartesianToImage p i) := by
    intro i
    have hf : IsFloat (c.cartesianToImage p i) := by
      fin_cases i <;> exact isFloat_fl _
    have h1 : fl (1 : ℚ) = 1 := by exact_mod_cast fl_int (i := 1) (by norm_num)
    simp only [Pinhole.cartesianToNearestIndex, Grid.imageToNearestIndex, Grid.imageToIndexReal, Grid.pinhole, sub_zero, div_one, h1, mul_one, fl_of_isFloat hf]
  have h := C90_project c p hz
  have hr : ∀ r e b : ℚ, |r - e| ≤ b → |(cppRound r : ℚ) - e| ≤ 1 / 2 + b := by
    intro r e b hb
    have := abs_add_le ((cppRound r : ℚ) - r) (r - e)
    rw [sub_add_sub_cancel] at this
    linarith [cppRound_err r]
  rw [hi, hi]
  exact ⟨hr _ _ _ h.1, hr _ _ _ h.2.1⟩

/-- The point of an image coordinate and a depth is the exact one, up to a rounding error. -/
theorem C90_unproject (c : Pinhole) (hc : c.Valid) (image : Point 2) (w : ℚ) (hw : 0 ≤ w) :
    |c.sensorToCartesian image w 0 - w * (image 0 - c.cx) / c.fx| ≤ 6 * w / c.fx * (|image 0| + |c.cx|) / 2 ^ 23 ∧
    |c.sensorToCartesian image w 1 - w * (image 1 - c.cy) / c.fy| ≤ 6 * w / c.fy * (|image 1| + |c.cy|) / 2 ^ 23 ∧
    |c.sensorToCartesian image w 2 - w| ≤ 3 * w / 2 ^ 23 := by
  obtain ⟨-, -, hx, hy⟩ := hc
  refine ⟨unproject_err c.fx c.fy _ _ w c.fxfy hx hy rfl hw, unproject_err c.fy c.fx _ _ w c.fxfy hy hx (by rw [mul_comm]; rfl) hw, ?_⟩
  obtain ⟨T, hT, e⟩ := depth_axis w c.fxfy (fl_pos' (mul_pos hx hy)).ne'
  have h := hT.apply (by norm_num) w
  rw [abs_of_nonneg (a := w) hw] at h
  show |fl (fl (w * fl (1 / c.fxfy)) * c.fxfy) - w| ≤ _
  rw [e]
  push_cast at h
  linarith

theorem SingleCamera.depth_ge (c : Pinhole) (hc : c.Valid) (image : Point 2) (w : ℚ) (hw : 1 / 500000 ≤ w) : kEpsilon ≤ c.sensorToCartesian image w 2 := by
  have h := (abs_le.mp (C90_unproject c hc image w (by linarith)).2.2).1
  have := kEpsilon_le
  linarith

/-- Unprojecting an image coordinate at a depth of at least two micrometres and projecting the point gives the image coordinate back, up to a rounding error. -/
theorem C90_image_roundtrip (c : Pinhole) (hc : c.Valid) (image : Point 2) (w : ℚ) (hw : 1 / 500000 ≤ w) :
    |c.cartesianToImage (c.sensorToCartesian image w) 0 - image 0| ≤ 14 * (|image 0| + |c.cx|) / 2 ^ 23 ∧
    |c.cartesianToImage (c.sensorToCartesian image w) 1 - image 1| ≤ 14 * (|image 1| + |c.cy|) / 2 ^ 23 := by
  have hd := depth_ge c hc image w hw
  obtain ⟨-, -, hx, hy⟩ := hc
  have hw0 : 0 < w := by linarith
  unfold Pinhole.cartesianToImage
  rw [max_eq_left hd]
  exact ⟨reproject_axis c.fx c.fy _ _ w c.fxfy hx hy rfl hw0, reproject_axis c.fy c.fx _ _ w c.fxfy hy hx (by rw [mul_comm]; rfl) hw0⟩

/-- Unprojecting a pixel at a depth of at least two micrometres and projecting the point gives the same pixel, for images with up to 131072 rows and columns. -/
theorem C90_pixel_roundtrip (c : Pinhole) (hc : c.Valid) (pixel : Index 2) (w : ℚ) (hw : 1 / 500000 ≤ w) (hp : ∀ i, |pixel i| ≤ 2 ^ 17)
    (hx : |c.cx| ≤ 2 ^ 17) (hy : |c.cy| ≤ 2 ^ 17) :
    c.cartesianToNearestIndex (c.sensorToCartesian (Grid.pinhole.indexToImage pixel) w) = pixel := by
  have hi : ∀ i, Grid.pinhole.indexToImage pixel i = pixel i := by
    intro i
    have h1 : fl ((pixel i : Int) : ℚ) = pixel i := fl_int (lt_of_le_of_lt (hp i) (by norm_num))
    simp only [Grid.indexToImage, Grid.pinhole, mul_one, add_zero, h1]
  have hr := C90_image_roundtrip c hc (Grid.pinhole.indexToImage pixel) w hw
  rw [hi, hi] at hr
  funext i
  have hf : IsFloat (c.cartesianToImage (c.sensorToCartesian (Grid.pinhole.indexToImage pixel) w) i) := by
    fin_cases i <;> exact isFloat_fl _
  have h1 : fl (1 : ℚ) = 1 := by exact_mod_cast fl_int (i := 1) (by norm_num)
  simp only [Pinhole.cartesianToNearestIndex, Grid.imageToNearestIndex, Grid.imageToIndexReal]
  have hg : Grid.pinhole.offset i = 0 := rfl
  have hg1 : Grid.pinhole.scale i = 1 := rfl
  rw [hg, hg1, sub_zero, div_one, h1, mul_one, fl_of_isFloat hf, fl_of_isFloat hf]
  apply cppRound_eq
  have hp' : |(pixel i : ℚ)| ≤ 2 ^ 17 := by exact_mod_cast hp i
  fin_cases i
  · refine lt_of_le_of_lt hr.1 ?_
    dsimp only [Fin.zero_eta] at hp'
    linarith
  · refine lt_of_le_of_lt hr.2 ?_
    dsimp only [Fin.mk_one] at hp'
    linarith

/-- Projecting a point in front of the camera and unprojecting the result gives the point back, up to a rounding error. -/
theorem C90_point_roundtrip (c : Pinhole) (hc : c.Valid) (p : Point 3) (hz : kEpsilon ≤ p 2) :
    let q := c.sensorToCartesian (c.cartesianToImage p) (c.cartesianToSensorZ p)
    |q 0 - p 0| ≤ 14 * (|p 0| + |c.cx| * p 2 / c.fx) / 2 ^ 23 ∧ |q 1 - p 1| ≤ 14 * (|p 1| + |c.cy| * p 2 / c.fy) / 2 ^ 23 ∧ |q 2 - p 2| ≤ 3 * p 2 / 2 ^ 23 := by
  have hp : 0 < p 2 := lt_of_lt_of_le kEpsilon_pos hz
  have h2 := (C90_unproject c hc (c.cartesianToImage p) (p 2) hp.le).2.2
  obtain ⟨-, -, hx, hy⟩ := hc
  refine ⟨?_, ?_, h2⟩
  · have := point_axis c.fx c.fy (p 0) (p 2) c.cx c.fxfy hx hy rfl hp
    unfold Pinhole.cartesianToImage
    rw [max_eq_left hz]
    exact this
  · have := point_axis c.fy c.fx (p 1) (p 2) c.cy c.fxfy hy hx (by rw [mul_comm]; rfl) hp
    unfold Pinhole.cartesianToImage
    rw [max_eq_left hz]
    exact this

/-! ## Image grids -/

/-- The pixel of an image coordinate is the nearest one, up to a rounding error. -/
theorem C90_nearest (g : Grid) (image : Point 2) (i : Fin 2) (hs : 0 < g.scale i) :
    |g.imageToNearestIndex image i * g.scale i + g.offset i - image i| ≤ g.scale i / 2 + 3 * |image i - g.offset i| / 2 ^ 23 := by
  have h := real_err (image i) (g.offset i) (g.scale i)
  have hr := cppRound_err (g.imageToIndexReal image i)
  unfold Grid.imageToNearestIndex
  unfold Grid.imageToIndexReal at hr ⊢
  generalize fl (fl (image i - g.offset i) * fl (1 / g.scale i)) = r at h hr
  have e : (cppRound r : ℚ) * g.scale i + g.offset i - image i = g.scale i * ((cppRound r - r) + (r - (image i - g.offset i) / g.scale i)) := by
    field_simp
    ring
  rw [e, abs_mul, abs_of_pos hs]
  have h1 := abs_add_le ((cppRound r : ℚ) - r) (r - (image i - g.offset i) / g.scale i)
  rw [abs_div, abs_of_pos hs] at h
  calc _ ≤ g.scale i * (1 / 2 + 3 / 2 ^ 23 * (|image i - g.offset i| / g.scale i)) := mul_le_mul_of_nonneg_left (by linarith) hs.le
    _ = _ := by field_simp

/-- The offset that is returned with the nearest pixel leads from the image coordinate to the centre of the pixel, up to a rounding error. -/
theorem C90_offset (g : Grid) (image : Point 2) (i : Fin 2) (hs : 0 < g.scale i) :
    (g.imageToNearestIndexAndOffset image).1 = g.imageToNearestIndex image ∧
    |(g.imageToNearestIndexAndOffset image).2 i - (g.imageToNearestIndex image i * g.scale i + g.offset i - image i)|
      ≤ (3 * |image i - g.offset i| + g.scale i) / 2 ^ 23 := by
  refine ⟨rfl, ?_⟩
  have h := real_err (image i) (g.offset i) (g.scale i)
  have hr := cppRound_err (g.imageToIndexReal image i)
  simp only [Grid.imageToNearestIndexAndOffset, Grid.imageToNearestIndex]
  unfold Grid.imageToIndexReal at hr ⊢
  generalize fl (fl (image i - g.offset i) * fl (1 / g.scale i)) = r at h hr
  obtain ⟨t1, h1, e1⟩ := fl_sc ((cppRound r : ℚ) - r)
  obtain ⟨t2, h2, e2⟩ := fl_sc (((cppRound r : ℚ) - r) * t1 * g.scale i)
  rw [e1, e2]
  have hT := (h1.mul h2).apply (by norm_num) ((cppRound r : ℚ) - r)
  rw [abs_div, abs_of_pos hs] at h
  have e : ((cppRound r : ℚ) - r) * t1 * g.scale i * t2 - ((cppRound r : ℚ) * g.scale i + g.offset i - image i) =
      g.scale i * ((((cppRound r : ℚ) - r) * (t1 * t2) - (cppRound r - r)) - (r - (image i - g.offset i) / g.scale i)) := by
    field_simp
    ring
  rw [e, abs_mul, abs_of_pos hs]
  have h3 := abs_sub ((((cppRound r : ℚ) - r) * (t1 * t2) - (cppRound r - r))) (r - (image i - g.offset i) / g.scale i)
  push_cast at hT
  calc _ ≤ g.scale i * (1 / 2 ^ 23 + 3 / 2 ^ 23 * (|image i - g.offset i| / g.scale i)) := mul_le_mul_of_nonneg_left (by linarith) hs.le
    _ = _ := by field_simp; ring

/-- The image coordinates of a pixel belong to that pixel, for images whose border is at most 2^19 pixels from the origin. -/
theorem C90_grid_roundtrip (g : Grid) (index : Index 2) (hs : ∀ i, 0 < g.scale i) (hi : ∀ i, |index i| ≤ 2 ^ 19) (ho : ∀ i, |g.offset i| ≤ 2 ^ 19 * g.scale i) :
    g.imageToNearestIndex (g.indexToImage index) = index := by
  funext i
  apply cppRound_eq
  have hf : fl ((index i : Int) : ℚ) = index i := fl_int (lt_of_le_of_lt (hi i) (by norm_num))
  have hi' : |(index i : ℚ)| ≤ 2 ^ 19 := by exact_mod_cast hi i
  have hs := hs i
  have ho := ho i
  simp only [Grid.imageToIndexReal, Grid.indexToImage, hf]
  generalize (index i : ℚ) = n at hi'
  generalize g.scale i = s at hs ho
  generalize g.offset i = o at ho
  obtain ⟨t1, h1, e1⟩ := fl_sc (n * s)
  obtain ⟨t2, h2, e2⟩ := fl_sc (n * s * t1 + o)
  rw [e1, e2]
  have hr := real_err ((n * s * t1 + o) * t2) o s
  have hn := (h1.mul h2).apply (by norm_num) n
  have hq := h2.apply (by norm_num) (o / s)
  have hos : |o / s| ≤ 2 ^ 19 := by
    rw [abs_div, abs_of_pos hs, div_le_iff₀ hs]
    exact ho
  have e : ((n * s * t1 + o) * t2 - o) / s - n = (n * (t1 * t2) - n) + (o / s * t2 - o / s) := by
    field_simp
    ring
  have hA : |((n * s * t1 + o) * t2 - o) / s - n| ≤ 3 * 2 ^ 19 / 2 ^ 23 := by
    rw [e]
    refine (abs_add_le _ _).trans ?_
    push_cast at hn hq
    linarith
  generalize ((n * s * t1 + o) * t2 - o) / s = A at hr hA
  generalize fl (fl ((n * s * t1 + o) * t2 - o) * fl (1 / s)) = r at hr
  have h3 : |A| ≤ |A - n| + |n| := by
    have := abs_add_le (A - n) n
    rwa [sub_add_cancel] at this
  have h4 := abs_add_le (r - A) (A - n)
  rw [sub_add_sub_cancel] at h4
  linarith

/-- All angles in the field of view of a lidar with up to 2^20 rows and columns belong to pixels of its image. -/
theorem C90_field_of_view (minAngle maxAngle : Point 2) (numCells : Index 2) (hn : ∀ i, 2 ≤ numCells i ∧ numCells i ≤ 2 ^ 20) (hm : ∀ i, minAngle i < maxAngle i)
    (angle : Point 2) (ha : ∀ i, minAngle i ≤ angle i ∧ angle i ≤ maxAngle i) (i : Fin 2) :
    0 ≤ (Grid.lidar minAngle maxAngle numCells).imageToNearestIndex angle i ∧
    (Grid.lidar minAngle maxAngle numCells).imageToNearestIndex angle i < numCells i := by
  simp only [Grid.imageToNearestIndex, Grid.imageToIndexReal, Grid.lidar]
  have hn := hn i
  have hf : fl ((numCells i - 1 : Int) : ℚ) = (numCells i - 1 : Int) := fl_int (by rw [abs_of_nonneg (by omega)]; omega)
  rw [hf]
  have hN : (0 : ℚ) < (numCells i - 1 : Int) := by exact_mod_cast (by omega : 0 < numCells i - 1)
  have hN2 : ((numCells i - 1 : Int) : ℚ) ≤ 2 ^ 20 := by exact_mod_cast (by omega : numCells i - 1 ≤ 2 ^ 20)
  have hD : 0 < fl (maxAngle i - minAngle i) := fl_pos' (sub_pos.mpr (hm i))
  have hDa : fl (angle i - minAngle i) ≤ fl (maxAngle i - minAngle i) := fl_mono (by linarith [(ha i).2])
  have hDa0 : 0 ≤ fl (angle i - minAngle i) := fl_nonneg' (by linarith [(ha i).1])
  generalize fl (maxAngle i - minAngle i) = D at hD hDa
  generalize fl (angle i - minAngle i) = A at hDa hDa0
  have hNN : ((numCells i - 1 : Int) : ℚ) = ((numCells i : ℚ) - 1) := by push_cast; rfl
  generalize hM : ((numCells i - 1 : Int) : ℚ) = N at hN hN2
  obtain ⟨t1, h1, e1⟩ := fl_sc (D / N)
  have hS : 0 < fl (1 / fl (D / N)) := fl_pos' (div_pos one_pos (fl_pos' (div_pos hD hN)))
  have h0 : 0 ≤ fl (A * fl (1 / fl (D / N))) := fl_nonneg' (mul_nonneg hDa0 hS.le)
  have hle : fl (A * fl (1 / fl (D / N))) ≤ fl (D * fl (1 / fl (D / N))) := fl_mono (mul_le_mul_of_nonneg_right hDa hS.le)
  obtain ⟨t2, h2, e2⟩ := fl_sc (1 / fl (D / N))
  obtain ⟨t3, h3, e3⟩ := fl_sc (D * fl (1 / fl (D / N)))
  have hX : fl (D * fl (1 / fl (D / N))) = N * (t1⁻¹ * t2 * t3) := by
    rw [e3, e2, e1]
    have := h1.pos
    field_simp
  have hT := ((h1.inv.mul h2).mul h3).apply (by norm_num) N
  rw [abs_of_pos hN] at hT
  rw [hX] at hle
  have hT := (abs_le.mp hT).2
  generalize fl (A * fl (1 / fl (D / N))) = r at h0 hle
  have hr := abs_le.mp (cppRound_err r)
  push_cast at hT
  constructor
  · unfold cppRound
    rw [if_pos h0]
    exact Int.floor_nonneg.mpr (by linarith)
  · have : (cppRound r : ℚ) < numCells i := by
      rw [hNN] at hM
      linarith [hr.2]
    exact_mod_cast this

/-- The reported range of image coordinates is not always that of the pixels: it depends on what was in memory before the camera was constructed. -/
theorem C90_image_range_fails : ∃ (memory : Grid) (c : Pinhole), c.Valid ∧ c.imageRange memory ≠ (![0, 0], ![(c.width : ℚ) - 1, (c.height : ℚ) - 1]) := by
  refine ⟨⟨fun _ => 0, fun _ => 0⟩, ⟨640, 480, 320, 320, 320, 240⟩, by norm_num [Pinhole.Valid], ?_⟩
  intro h
  have := congrFun (congrArg Prod.snd h) 0
  simp [Pinhole.imageRange, Grid.indexToImage, fl_zero] at this
  norm_num at this

/-! ## Examples -/

/-- A VGA camera and the lower right pixel at 3 m. -/
example : Pinhole.Valid ⟨640, 480, 525, 525, 319.5, 239.5⟩ ∧ (1 / 500000 : ℚ) ≤ 3 ∧ (∀ i, |(![639, 479] : Index 2) i| ≤ 2 ^ 17) ∧ |(319.5 : ℚ)| ≤ 2 ^ 17 ∧
    kEpsilon ≤ (![1, 2, 3] : Point 3) 2 := by
  refine ⟨by norm_num [Pinhole.Valid], by norm_num, by decide, by norm_num [abs_of_pos], ?_⟩
  have := kEpsilon_le
  show kEpsilon ≤ 3
  linarith

/-- The grid of a lidar with 64 rows and 1024 columns meets the conditions of the theorems about grids. -/
example : let g := Grid.lidar ![-1 / 4, -3] ![1 / 4, 3] ![64, 1024]
    (∀ i, 0 < g.scale i) ∧ (∀ i, |g.offset i| ≤ 2 ^ 19 * g.scale i) ∧ (∀ i, 2 ≤ (![64, 1024] : Index 2) i ∧ (![64, 1024] : Index 2) i ≤ 2 ^ 20) ∧
    (∀ i, (![-1 / 4, -3] : Point 2) i < (![1 / 4, 3] : Point 2) i) := by
  decide +kernel

end Wavemap
