import Verif.Model.SingleCell
import Verif.Props.SingleMeasurement
import Verif.Props.SinglePoses
/-!
# C93: the update of a cell by a camera in single precision
-/
namespace Wavemap
namespace SingleCell
open Single SingleCamera SingleMeasurement SinglePoses

/-! ## Specification -/

/-- The centre of a cell in the frame of the camera, without rounding. -/
def exactCell (v : CameraView) (w : ℚ) (index : Index 3) (k : Fin 3) : ℚ := exactRotate v.pose.q (fun k => (index k + 1 / 2) * w) k + v.pose.t k

/-- The bound on the error of that point, where `M` bounds the coordinates of the cell and `N` those of the position. -/
def positionError (M N : ℚ) : ℚ := (73 * M + 2 * N) / 2 ^ 24

/-- The bound on the distance between a pixel used and the exact projection of the cell, along one axis: half a pixel and the rounding errors. -/
def pixelError (δ f c x z : ℚ) : ℚ := 1 / 2 + (3 * |f * x / z| + |c|) / 2 ^ 23 + 2 * f * δ * (1 + |x / z|) / z

/-! ## Proofs -/

theorem center_err {w : ℚ} (hw : 0 < w) (index : Index 3) (h : ∀ k, |index k| < 2 ^ 22) (k : Fin 3) :
    |Single.indexToCenterPoint index w k - (index k + 1 / 2) * w| ≤ |((index k : ℚ) + 1 / 2) * w| / 2 ^ 24 := by
  have e1 : fl (index k : ℚ) = index k := fl_of_isFloat (isFloat_int ((h k).trans (by norm_num)))
  have e2 : fl ((index k : ℚ) + 1 / 2) = index k + 1 / 2 := by
    refine fl_of_isFloat ⟨2 * index k + 1, -1, ?_, ?_⟩
    · have := abs_lt.1 (h k)
      rw [abs_lt]; omega
    · push_cast; ring
  unfold Single.indexToCenterPoint
  rw [e1, e2]
  exact fl_err _

theorem cell_err {v : CameraView} (hq : |normSq v.pose.q - 1| ≤ 1 / 100) {w : ℚ} (hw : 0 < w) (index : Index 3) (h : ∀ k, |index k| < 2 ^ 22) {M N : ℚ}
    (hM : ∀ k, |((index k : ℚ) + 1 / 2) * w| ≤ M) (hN : ∀ k, |v.pose.t k| ≤ N) (k : Fin 3) : |v.cellInCamera w index k - exactCell v w index k| ≤ positionError M N := by
  have hM0 : 0 ≤ M := (abs_nonneg _).trans (hM 0)
  have hc : ∀ k, |Single.indexToCenterPoint index w k - (index k + 1 / 2) * w| ≤ M / 2 ^ 24 := fun k =>
    (center_err hw index h k).trans (div_le_div_of_nonneg_right (hM k) (by norm_num))
  have hb : ∀ k, |Single.indexToCenterPoint index w k| ≤ M + M / 2 ^ 24 := fun k => by
    have := abs_add_le (Single.indexToCenterPoint index w k - (index k + 1 / 2) * w) ((index k + 1 / 2) * w)
    rw [sub_add_cancel] at this
    linarith [hM k, hc k]
  have h1 := transform_err (T := v.pose) le_rfl hq hb hN k
  have h2 := exact_le le_rfl hq hc k
  have e : Single.indexToCenterPoint index w = fun k => (Single.indexToCenterPoint index w k - (index k + 1 / 2) * w) + (index k + 1 / 2) * w := by
    funext k; ring
  have h3 : exactRotate v.pose.q (Single.indexToCenterPoint index w) k
      = exactRotate v.pose.q (fun k => Single.indexToCenterPoint index w k - (index k + 1 / 2) * w) k + exactRotate v.pose.q (fun k => (index k + 1 / 2) * w) k := by
    conv_lhs => rw [e]
    exact exact_add _ _ _ k
  rw [h3] at h1
  unfold CameraView.cellInCamera exactCell positionError
  generalize exactRotate v.pose.q (fun k => Single.indexToCenterPoint index w k - (index k + 1 / 2) * w) k = A at *
  generalize exactRotate v.pose.q (fun k => (index k + 1 / 2) * w) k = B at *
  generalize v.pose.transform (Single.indexToCenterPoint index w) k = C at *
  generalize v.pose.t k = D at *
  have a1 := abs_le.1 h1
  have a2 := abs_le.1 h2
  rw [abs_le]
  norm_num at a1 a2 ⊢
  constructor <;> linarith [a1.1, a1.2, a2.1, a2.2]

/-- The exact update does not change much with the depth. -/
theorem exact_lip {c : RayConfig} (hc : c.Scaled) (d d' m : ℚ) : ∃ a b : ℝ, c.exact.distanceUpdate d m = some a ∧ c.exact.distanceUpdate d' m = some b ∧
    |a - b| ≤ 18 * (|d - d'| / c.rangeSigma : ℚ) / (1 - c.scalingFree) := by
  refine ⟨_, _, ray_exact hc d m, ray_exact hc d' m, ?_⟩
  obtain ⟨q0, q1⟩ := rayQ_range hc d m
  obtain ⟨r0, r1⟩ := rayQ_range hc d' m
  obtain ⟨f0, f1, -⟩ := hc.free
  have f0R : (0 : ℝ) < c.scalingFree := by exact_mod_cast f0
  have f1R : (c.scalingFree : ℝ) < 1 := by exact_mod_cast f1
  have hs := hc.sigma
  have h1 : |rayQ c d m - rayQ c d' m| ≤ 9 / 16 * (|d - d'| / c.rangeSigma : ℚ) := by
    unfold rayQ
    rw [add_sub_add_right_eq_sub]
    refine (scaleR_lip f0R.le f1R.le (by exact_mod_cast hc.occupied.1.le) (by exact_mod_cast hc.occupied.2) _ _).trans ?_
    have h2 := rangeQ_lip ((d - m) / c.rangeSigma) ((d' - m) / c.rangeSigma)
    have e : (d - m) / c.rangeSigma - (d' - m) / c.rangeSigma = (d - d') / c.rangeSigma := by ring
    rw [e, abs_div, abs_of_pos hs] at h2
    have h3 := (Rat.cast_le (K := ℝ)).2 h2
    rw [Rat.cast_abs, Rat.cast_sub, Rat.cast_mul] at h3
    norm_num at h3 ⊢
    exact h3
  set A := rayQ c d m
  set B := rayQ c d' m
  set D : ℝ := ((|d - d'| / c.rangeSigma : ℚ) : ℝ)
  have hw : (0 : ℝ) < 1 - c.scalingFree := by linarith
  rw [Real.log_div (by linarith) (by linarith), Real.log_div (by linarith) (by linarith)]
  have d1 := log_diff (m := (1 - (c.scalingFree : ℝ)) / 2) (by linarith) q0 r0
  have d2 := log_diff (m := 7 / 200) (by norm_num) (a := 1 - A) (b := 1 - B) (by linarith) (by linarith)
  have e2 : |1 - A - (1 - B)| = |A - B| := by rw [abs_sub_comm A B]; congr 1; ring
  rw [e2] at d2
  have e1 : |A - B| / ((1 - (c.scalingFree : ℝ)) / 2) = 2 * |A - B| * (1 / (1 - (c.scalingFree : ℝ))) := by field_simp
  rw [e1] at d1
  have e3 : 18 * D / (1 - (c.scalingFree : ℝ)) = 18 * D * (1 / (1 - (c.scalingFree : ℝ))) := by ring
  rw [e3]
  have hV : 1 ≤ 1 / (1 - (c.scalingFree : ℝ)) := by rw [le_div_iff₀ hw]; linarith
  generalize 1 / (1 - (c.scalingFree : ℝ)) = V at *
  have h0 := abs_nonneg (A - B)
  have h4 : |A - B| * V ≤ 9 / 16 * D * V := mul_le_mul_of_nonneg_right h1 (by linarith)
  have h5 : |A - B| ≤ |A - B| * V := by nlinarith
  have h6 : 0 ≤ D * V := by nlinarith
  have a1 := abs_le.1 d1
  have a2 := abs_le.1 d2
  rw [abs_le]
  constructor <;> nlinarith [a1.1, a1.2, a2.1, a2.2]

/-- A projection at a slightly wrong point. -/
theorem ratio_err {δ x z X Z : ℚ} (hx : |X - x| ≤ δ) (hz : |Z - z| ≤ δ) (h : 4 * δ ≤ z) (h0 : 0 < z) : |X / Z - x / z| ≤ 4 / 3 * δ * (1 + |x / z|) / z := by
  have hδ : 0 ≤ δ := (abs_nonneg _).trans hx
  have a := abs_le.1 hz
  have hZ : 3 / 4 * z ≤ Z := by linarith [a.1]
  have hZ0 : 0 < Z := by linarith
  have e : X / Z - x / z = ((X - x) - (Z - z) * (x / z)) / Z := by field_simp; ring
  rw [e, abs_div, abs_of_pos hZ0, div_le_div_iff₀ hZ0 h0]
  have h1 : |X - x - (Z - z) * (x / z)| ≤ δ * (1 + |x / z|) := by
    refine (abs_sub _ _).trans ?_
    rw [abs_mul]
    nlinarith [mul_le_mul_of_nonneg_right hz (abs_nonneg (x / z))]
  have h2 : 0 ≤ δ * (1 + |x / z|) := mul_nonneg hδ (by positivity)
  calc _ ≤ δ * (1 + |x / z|) * z := mul_le_mul_of_nonneg_right h1 h0.le
    _ ≤ 4 / 3 * δ * (1 + |x / z|) * Z := by nlinarith

theorem pixel_axis {i : Int} {δ f c x z X Z : ℚ} (hf : 0 < f) (hx : |X - x| ≤ δ) (hz : |Z - z| ≤ δ) (h : 4 * δ ≤ z) (h0 : 0 < z)
    (hi : |(i : ℚ) - (f * X / Z + c)| ≤ 1 / 2 + (3 * |f * X / Z| + |c|) / 2 ^ 23) : |(i : ℚ) - (f * x / z + c)| ≤ pixelError δ f c x z := by
  have h1 := ratio_err hx hz h h0
  have e1 : f * X / Z = f * (X / Z) := by ring
  have e2 : f * x / z = f * (x / z) := by ring
  unfold pixelError
  rw [e1] at hi
  rw [e2]
  have e3 : 4 / 3 * δ * (1 + |x / z|) / z = 4 / 3 * (δ * (1 + |x / z|) / z) := by ring
  have e4 : 2 * f * δ * (1 + |x / z|) / z = 2 * f * (δ * (1 + |x / z|) / z) := by ring
  rw [e3] at h1
  rw [e4]
  have hδ : 0 ≤ δ := (abs_nonneg _).trans hx
  have hE : 0 ≤ δ * (1 + |x / z|) / z := div_nonneg (mul_nonneg hδ (by positivity)) h0.le
  generalize δ * (1 + |x / z|) / z = E at *
  generalize X / Z = R at *
  generalize x / z = r at *
  have h2 : |f * R - f * r| ≤ f * (4 / 3 * E) := by
    rw [← mul_sub, abs_mul, abs_of_pos hf]
    exact mul_le_mul_of_nonneg_left h1 hf.le
  have h3 : |f * R| ≤ |f * r| + f * (4 / 3 * E) := by
    have := abs_add_le (f * R - f * r) (f * r)
    rw [sub_add_cancel] at this
    linarith
  have h4 : (3 * |f * R| + |c|) / 2 ^ 23 ≤ (3 * |f * r| + |c|) / 2 ^ 23 + f * E / 100 := by
    have : 0 ≤ f * E := mul_nonneg hf.le hE
    linarith
  have b1 := abs_le.1 hi
  have b2 := abs_le.1 h2
  have : 0 ≤ f * E := mul_nonneg hf.le hE
  rw [abs_le]
  constructor <;> linarith [b1.1, b1.2, b2.1, b2.2]

end SingleCell

open Single SingleCamera SingleMeasurement SinglePoses SingleCell

/-- What a camera adds to a cell within its range: up to the stated errors it is the exact update for the exact depth of the cell's centre and the measured distance of a
pixel next to its exact projection, or nothing if that pixel is outside the image. -/
theorem C93_cell (logF : ℚ → ℚ) (hl : IsLogSingle logF) (v : CameraView) (hc : v.ray.Scaled) (hf : 0 < v.camera.fx ∧ 0 < v.camera.fy) (hq : |normSq v.pose.q - 1| ≤ 1 / 100)
    (w : ℚ) (hw : 0 < w) (index : Index 3) (h : ∀ k, |index k| < 2 ^ 22) (M N : ℚ) (hM : ∀ k, |((index k : ℚ) + 1 / 2) * w| ≤ M) (hN : ∀ k, |v.pose.t k| ≤ N)
    (hmin : v.minRange + positionError M N ≤ exactCell v w index 2) (hmax : exactCell v w index 2 ≤ v.maxRange - positionError M N)
    (hz : 4 * positionError M N + kEpsilon ≤ exactCell v w index 2) :
    ∃ (i : Idx2) (u : ℚ), v.cellChange logF w index = some u ∧
      |(i.1 : ℚ) - (v.camera.fx * exactCell v w index 0 / exactCell v w index 2 + v.camera.cx)|
        ≤ pixelError (positionError M N) v.camera.fx v.camera.cx (exactCell v w index 0) (exactCell v w index 2) ∧
      |(i.2 : ℚ) - (v.camera.fy * exactCell v w index 1 / exactCell v w index 2 + v.camera.cy)|
        ≤ pixelError (positionError M N) v.camera.fy v.camera.cy (exactCell v w index 1) (exactCell v w index 2) ∧
      match v.image.at i with
      | none => u = 0
      | some measured => ∃ exact : ℝ, v.ray.exact.distanceUpdate (exactCell v w index 2) measured = some exact ∧
          |(u : ℝ) - exact| ≤ (1 / 2 ^ 12 + 18 * (positionError M N / v.ray.rangeSigma : ℚ)) / (1 - v.ray.scalingFree) + kEpsilon := by
  have he := cell_err hq hw index h hM hN
  set δ := positionError M N with hδ
  have hδ0 : 0 ≤ δ := (abs_nonneg _).trans (he 0)
  have hk := SingleCamera.kEpsilon_pos
  set p := v.cellInCamera w index with hp
  have a2 := abs_le.1 (he 2)
  have hpz : kEpsilon ≤ p 2 := by linarith [a2.1]
  obtain ⟨x1, x2⟩ := C90_pixel v.camera p hpz
  have p1 := pixel_axis hf.1 (he 0) (he 2) (by linarith) (by linarith) x1
  have p2 := pixel_axis hf.2 (he 1) (he 2) (by linarith) (by linarith) x2
  refine ⟨(v.camera.cartesianToNearestIndex p 0, v.camera.cartesianToNearestIndex p 1), ?_⟩
  have hup : v.computeUpdate logF p = match v.image.at (v.camera.cartesianToNearestIndex p 0, v.camera.cartesianToNearestIndex p 1) with
      | none => some 0
      | some measured => v.ray.distanceUpdate logF (p 2) measured := by
    unfold CameraView.computeUpdate
    rw [if_neg]
    · rfl
    · push Not
      constructor
      · show v.minRange ≤ p 2
        linarith [a2.1]
      · show p 2 ≤ v.maxRange
        linarith [a2.2]
  have hch : v.cellChange logF w index = (v.computeUpdate logF p).map fun update => if kEpsilon < |update| then update else 0 := rfl
  rw [hch, hup]
  cases him : v.image.at (v.camera.cartesianToNearestIndex p 0, v.camera.cartesianToNearestIndex p 1) with
  | none =>
    refine ⟨0, ?_, p1, p2, rfl⟩
    simp
  | some measured =>
    have hfp : IsFloat (p 2) := isFloat_fl _
    obtain ⟨u, b, e1, e2, e3⟩ := C92_ray_error logF hl v.ray hc (p 2) measured hfp
    obtain ⟨b', ex, e4, e5, e6⟩ := exact_lip hc (p 2) (exactCell v w index 2) measured
    rw [e2] at e4
    obtain rfl := Option.some.inj e4
    refine ⟨if kEpsilon < |u| then u else 0, ?_, p1, p2, ex, e5, ?_⟩
    · dsimp only
      rw [e1]; rfl
    · have f1R : (v.ray.scalingFree : ℝ) < 1 := by exact_mod_cast hc.free.2.1
      have hwR : (0 : ℝ) < 1 - v.ray.scalingFree := by linarith
      have hd : ((|p 2 - exactCell v w index 2| / v.ray.rangeSigma : ℚ) : ℝ) ≤ ((δ / v.ray.rangeSigma : ℚ) : ℝ) :=
        (Rat.cast_le (K := ℝ)).2 (div_le_div_of_nonneg_right (he 2) hc.sigma.le)
      have hu : |((if kEpsilon < |u| then u else 0 : ℚ) : ℝ) - u| ≤ kEpsilon := by
        split
        · rw [sub_self, abs_zero]; exact_mod_cast hk.le
        · rename_i hn
          push Not at hn
          rw [Rat.cast_zero, zero_sub, abs_neg]
          exact_mod_cast hn
      have e7 : 18 * ((|p 2 - exactCell v w index 2| / v.ray.rangeSigma : ℚ) : ℝ) / (1 - v.ray.scalingFree)
          ≤ 18 * ((δ / v.ray.rangeSigma : ℚ) : ℝ) / (1 - v.ray.scalingFree) := div_le_div_of_nonneg_right (by linarith) hwR.le
      have e8 := abs_le.1 e3
      have e9 := abs_le.1 (e6.trans e7)
      have e10 := abs_le.1 hu
      rw [add_div]
      rw [abs_le]
      constructor <;> linarith [e8.1, e8.2, e9.1, e9.2, e10.1, e10.2]

/-- A cell that is not within the camera's range is not changed. -/
theorem C93_outside (logF : ℚ → ℚ) (v : CameraView) (hq : |normSq v.pose.q - 1| ≤ 1 / 100) (w : ℚ) (hw : 0 < w) (index : Index 3) (h : ∀ k, |index k| < 2 ^ 22) (M N : ℚ)
    (hM : ∀ k, |((index k : ℚ) + 1 / 2) * w| ≤ M) (hN : ∀ k, |v.pose.t k| ≤ N)
    (hout : exactCell v w index 2 < v.minRange - positionError M N ∨ v.maxRange + positionError M N < exactCell v w index 2) :
    v.cellChange logF w index = some 0 := by
  have a := abs_le.1 (cell_err hq hw index h hM hN 2)
  unfold CameraView.cellChange CameraView.computeUpdate
  rw [if_pos]
  · simp
  · rcases hout with h1 | h1
    · exact Or.inl (by show v.cellInCamera w index 2 < v.minRange; linarith [a.2])
    · exact Or.inr (by show v.maxRange < v.cellInCamera w index 2; linarith [a.1])

/-! ## Example -/

namespace SingleCell

/-- A camera at the origin that sees a wall five metres away. -/
def exampleView : CameraView where
  camera := ⟨640, 480, 500, 500, 320, 240⟩
  pose := ⟨⟨1, 0, 0, 0⟩, fun _ => 0⟩
  image := ⟨640, 480, fun _ _ => 5⟩
  ray := ⟨1 / 8, 1 / 4, 1 / 2⟩
  minRange := 1 / 2
  maxRange := 20

theorem exampleView_cell (k : Fin 3) : exactCell exampleView (1 / 8) ![2, -1, 39] k = (![5 / 16, -1 / 16, 79 / 16] : Point 3) k := by
  fin_cases k
  · norm_num [exactCell, exactRotate, exampleView]
  · norm_num [exactCell, exactRotate, exampleView]
  · norm_num [exactCell, exactRotate, exampleView]
    show (((39 : Int) : ℚ) + 1 / 2) * (1 / 8) = 79 / 16
    norm_num

end SingleCell

example : ∃ u : ℚ, exampleView.cellChange exampleLog (1 / 8) ![2, -1, 39] = some u ∧
    ∃ exact : ℝ, exampleView.ray.exact.distanceUpdate (79 / 16 : ℚ) (5 : ℚ) = some exact ∧ |(u : ℝ) - exact| ≤ 1 / 100 := by
  have e0 := exampleView_cell 0
  have e1 := exampleView_cell 1
  have e2 := exampleView_cell 2
  have hk : Single.kEpsilon ≤ 1 / 1000 := by decide +kernel
  simp only [Matrix.cons_val_zero, Matrix.cons_val_one, Matrix.cons_val] at e0 e1 e2
  have hp : positionError 5 0 = 365 / 2 ^ 24 := by norm_num [positionError]
  obtain ⟨i, u, h1, h2, h3, h4⟩ := C93_cell exampleLog exampleLog_ok exampleView
    ⟨by norm_num [exampleView], ⟨by norm_num [exampleView], by norm_num [exampleView], 1, -2, by norm_num, by norm_num [exampleView]⟩, by norm_num [exampleView], by norm_num [exampleView]⟩
    (by norm_num [exampleView]) (by norm_num [exampleView, SinglePoses.normSq]) (1 / 8) (by norm_num) ![2, -1, 39] (by intro k; fin_cases k <;> norm_num) 5 0
    (by intro k; fin_cases k <;> norm_num [abs_of_nonneg, abs_of_neg]) (by intro k; norm_num [exampleView])
    (by rw [e2, hp]; norm_num [exampleView]) (by rw [e2, hp]; norm_num [exampleView]) (by rw [e2, hp]; norm_num at hk ⊢; linarith)
  rw [e0, e2, hp] at h2
  rw [e1, e2, hp] at h3
  rw [e2, hp] at h4
  refine ⟨u, h1, ?_⟩
  have b2 := abs_le.1 h2
  have b3 := abs_le.1 h3
  norm_num [exampleView, pixelError, abs_of_neg] at b2 b3
  have i1 : 0 ≤ i.1 ∧ i.1 < 640 := by
    constructor
    · have : (-1 : ℚ) < i.1 := by linarith [b2.1]
      have : (-1 : Int) < i.1 := by exact_mod_cast this
      omega
    · have : (i.1 : ℚ) < 640 := by linarith [b2.2]
      exact_mod_cast this
  have i2 : 0 ≤ i.2 ∧ i.2 < 480 := by
    constructor
    · have : (-1 : ℚ) < i.2 := by linarith [b3.1]
      have : (-1 : Int) < i.2 := by exact_mod_cast this
      omega
    · have : (i.2 : ℚ) < 480 := by linarith [b3.2]
      exact_mod_cast this
  have him : exampleView.image.at i = some 5 := by
    unfold Image.at Image.inBounds
    rw [if_pos]
    · rfl
    · simp only [exampleView, Bool.and_eq_true, decide_eq_true_eq]
      exact ⟨⟨⟨i1.1, i2.1⟩, decide_eq_true i1.2⟩, decide_eq_true i2.2⟩
  rw [him] at h4
  obtain ⟨ex, h5, h6⟩ := h4
  refine ⟨ex, h5, h6.trans ?_⟩
  have hkR : ((Single.kEpsilon : ℚ) : ℝ) ≤ 1 / 1000 := by
    have := (Rat.cast_le (K := ℝ)).2 hk
    push_cast at this
    exact this
  norm_num [exampleView] at hkR ⊢
  linarith

end Wavemap
