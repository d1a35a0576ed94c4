import Verif.Model.SingleNeighborsCell
import Verif.Props.SingleCell
import Verif.Props.SingleNeighbors
import Verif.Props.SingleLidarClearing
/-!
# C99: the update of a cell by the four nearest pixels of a depth image in single precision
-/
namespace Wavemap
namespace SingleNeighborsCell
open SingleCamera SingleMeasurement SinglePoses SingleCell SingleNeighbors

/-! ## Specification -/

/-- The exact image coordinates of the centre of a cell. -/
def exactProjection (v : Single.CameraView) (w : ℚ) (index : Index 3) : Point 2 :=
  ![v.camera.fx * exactCell v w index 0 / exactCell v w index 2 + v.camera.cx, v.camera.fy * exactCell v w index 1 / exactCell v w index 2 + v.camera.cy]

/-- The bound on the error of the image coordinates along one axis, for a cell with errors of at most `δ` in its coordinates. -/
def axisError (δ f c x z : ℚ) : ℚ := (3 * |f * x / z| + |c|) / 2 ^ 23 + 2 * f * δ * (1 + |x / z|) / z

/-- The bounds for both axes. -/
def imageError (v : Single.CameraView) (w : ℚ) (index : Index 3) (δ : ℚ) : Point 2 :=
  ![axisError δ v.camera.fx v.camera.cx (exactCell v w index 0) (exactCell v w index 2), axisError δ v.camera.fy v.camera.cy (exactCell v w index 1) (exactCell v w index 2)]

/-- The four corners of a square of pixels. -/
def corners (lo hi : Index 2) : List Idx2 := [(lo 0, lo 1), (hi 0, lo 1), (lo 0, hi 1), (hi 0, hi 1)]

/-- `lo` and `hi` are the corners of a square with sides of at most one pixel that contains the exact projection of the cell, up to the error of the image coordinates. -/
def Surrounds (v : Single.CameraView) (w : ℚ) (index : Index 3) (δ : ℚ) (lo hi : Index 2) : Prop :=
  ∀ k, lo k ≤ hi k ∧ hi k ≤ lo k + 1 ∧ (lo k : ℚ) ≤ exactProjection v w index k + imageError v w index δ k ∧
    exactProjection v w index k - imageError v w index δ k ≤ hi k

/-! ## Proofs -/

theorem image_axis {I δ f c x z X Z : ℚ} (hf : 0 < f) (hx : |X - x| ≤ δ) (hz : |Z - z| ≤ δ) (h : 4 * δ ≤ z) (h0 : 0 < z)
    (hi : |I - (f * X / Z + c)| ≤ (3 * |f * X / Z| + |c|) / 2 ^ 23) : |I - (f * x / z + c)| ≤ axisError δ f c x z := by
  have h1 := ratio_err hx hz h h0
  have e1 : f * X / Z = f * (X / Z) := by ring
  have e2 : f * x / z = f * (x / z) := by ring
  unfold axisError
  rw [e1] at hi
  rw [e2]
  have e3 : 4 / 3 * δ * (1 + |x / z|) / z = 4 / 3 * (δ * (1 + |x / z|) / z) := by ring
  have e4 : 2 * f * δ * (1 + |x / z|) / z = 2 * f * (δ * (1 + |x / z|) / z) := by ring
  rw [e3] at h1
  rw [e4]
  have hδ : 0 ≤ δ := (abs_nonneg _).trans hx
  have hE : 0 ≤ δ * (1 + |x / z|) / z := div_nonneg (mul_nonneg hδ (by positivity)) h0.le
  generalize δ * (1 + |x / z|) / z = E at *
  generalize X / Z = R at *
  generalize x / z = r at *
  have h2 : |f * R - f * r| ≤ f * (4 / 3 * E) := by
    rw [← mul_sub, abs_mul, abs_of_pos hf]
    exact mul_le_mul_of_nonneg_left h1 hf.le
  have h3 : |f * R| ≤ |f * r| + f * (4 / 3 * E) := by
    have := abs_add_le (f * R - f * r) (f * r)
    rw [sub_add_cancel] at this
    linarith
  have h4 : (3 * |f * R| + |c|) / 2 ^ 23 ≤ (3 * |f * r| + |c|) / 2 ^ 23 + f * E / 100 := by
    have : 0 ≤ f * E := mul_nonneg hf.le hE
    linarith
  have b1 := abs_le.1 hi
  have b2 := abs_le.1 h2
  have : 0 ≤ f * E := mul_nonneg hf.le hE
  rw [abs_le]
  constructor <;> linarith [b1.1, b1.2, b2.1, b2.2]

theorem pinhole_real {image : Point 2} (h : ∀ k, IsFloat (image k)) (k : Fin 2) : Single.Grid.pinhole.imageToIndexReal image k = image k := by
  have h1 : fl (1 : ℚ) = 1 := by exact_mod_cast fl_int (i := 1) (by norm_num)
  simp only [Single.Grid.imageToIndexReal, Single.Grid.pinhole, sub_zero, div_one, h1, mul_one, fl_of_isFloat (h k)]

theorem ray_lip {c : Single.RayConfig} (hc : c.Scaled) (im : Image ℚ) {d d' δ : ℚ} (hd : |d - d'| ≤ δ) (i : Idx2) :
    ∃ a b : ℝ, exactRay c im d i = some a ∧ exactRay c im d' i = some b ∧ |a - b| ≤ 18 * (δ / c.rangeSigma : ℚ) / (1 - c.scalingFree) := by
  have hs := hc.sigma
  have f1R : (c.scalingFree : ℝ) < 1 := by exact_mod_cast hc.free.2.1
  have hδ : 0 ≤ δ := (abs_nonneg _).trans hd
  have h0 : (0 : ℝ) ≤ ((δ / c.rangeSigma : ℚ) : ℝ) := by exact_mod_cast div_nonneg hδ hs.le
  unfold exactRay
  cases im.at i with
  | none => exact ⟨0, 0, rfl, rfl, by rw [sub_zero, abs_zero]; exact div_nonneg (by linarith) (by linarith)⟩
  | some m =>
    obtain ⟨a, b, h1, h2, h3⟩ := exact_lip hc d d' m
    refine ⟨a, b, h1, h2, h3.trans (div_le_div_of_nonneg_right ?_ (by linarith))⟩
    have := (Rat.cast_le (K := ℝ)).2 (div_le_div_of_nonneg_right hd hs.le)
    linarith

theorem sum_lip {c : Single.RayConfig} (hc : c.Scaled) (im : Image ℚ) {d d' δ : ℚ} (hd : |d - d'| ≤ δ) (lo hi : Index 2) :
    ∃ a b : ℝ, Wavemap.sumUpdates ((corners lo hi).map (exactRay c im d)) = some a ∧ Wavemap.sumUpdates ((corners lo hi).map (exactRay c im d')) = some b ∧
      |a - b| ≤ 72 * (δ / c.rangeSigma : ℚ) / (1 - c.scalingFree) := by
  choose a b h1 h2 h3 using ray_lip hc im hd
  unfold corners
  simp only [List.map_cons, List.map_nil, h1, h2]
  refine ⟨_, _, rfl, rfl, ?_⟩
  have e : 72 * ((δ / c.rangeSigma : ℚ) : ℝ) / (1 - c.scalingFree) = 4 * (18 * ((δ / c.rangeSigma : ℚ) : ℝ) / (1 - c.scalingFree)) := by ring
  rw [e]
  have k1 := abs_le.1 (h3 (lo 0, lo 1))
  have k2 := abs_le.1 (h3 (hi 0, lo 1))
  have k3 := abs_le.1 (h3 (lo 0, hi 1))
  have k4 := abs_le.1 (h3 (hi 0, hi 1))
  rw [abs_le]
  constructor <;> linarith [k1.1, k1.2, k2.1, k2.2, k3.1, k3.2, k4.1, k4.2]

end SingleNeighborsCell
open SingleCamera SingleMeasurement SinglePoses SingleCell SingleNeighbors SingleNeighborsCell

/-- What a camera adds to a cell within its range, with all neighbours: up to the stated error it is the sum of the exact updates, for the exact depth of the cell's centre, by four
pixels that surround its exact projection; pixels outside the image add nothing. -/
theorem C99_cell (logF : ℚ → ℚ) (hl : IsLogSingle logF) (v : Single.CameraView) (hc : v.ray.Scaled) (hf : 0 < v.camera.fx ∧ 0 < v.camera.fy)
    (hq : |normSq v.pose.q - 1| ≤ 1 / 100) (him : ∀ i m, v.image.at i = some m → IsFloat m) (w : ℚ) (hw : 0 < w) (index : Index 3) (h : ∀ k, |index k| < 2 ^ 22) (M N : ℚ)
    (hM : ∀ k, |((index k : ℚ) + 1 / 2) * w| ≤ M) (hN : ∀ k, |v.pose.t k| ≤ N)
    (hmin : v.minRange + positionError M N ≤ exactCell v w index 2) (hmax : exactCell v w index 2 ≤ v.maxRange - positionError M N)
    (hz : 4 * positionError M N + Single.kEpsilon ≤ exactCell v w index 2) :
    ∃ (lo hi : Index 2) (u : ℚ) (exact : ℝ), v.cellChangeAll logF w index = some u ∧ Surrounds v w index (positionError M N) lo hi ∧
      Wavemap.sumUpdates ((corners lo hi).map (exactRay v.ray v.image (exactCell v w index 2))) = some exact ∧
      |(u : ℝ) - exact| ≤ (5 / 2 ^ 12 + 72 * (positionError M N / v.ray.rangeSigma : ℚ)) / (1 - v.ray.scalingFree) + Single.kEpsilon ∧
      ((∀ i ∈ corners lo hi, v.image.at i = none) → u = 0) := by
  have he := cell_err hq hw index h hM hN
  set δ := positionError M N with hδ
  have hδ0 : 0 ≤ δ := (abs_nonneg _).trans (he 0)
  have hk := SingleCamera.kEpsilon_pos
  set p := v.cellInCamera w index with hp
  have a2 := abs_le.1 (he 2)
  have hpz : Single.kEpsilon ≤ p 2 := by linarith [a2.1]
  obtain ⟨x1, x2, -⟩ := C90_project v.camera p hpz
  have p1 := image_axis hf.1 (he 0) (he 2) (by linarith) (by linarith) x1
  have p2 := image_axis hf.2 (he 1) (he 2) (by linarith) (by linarith) x2
  have hfl : ∀ k, IsFloat (v.camera.cartesianToImage p k) := by
    intro k
    fin_cases k <;> exact isFloat_fl _
  obtain ⟨u, -, s, c1, -, -, c3, c4, c5, c6⟩ := C96_ray logF hl v.ray hc Single.Grid.pinhole v.image him (v.camera.cartesianToImage p) (p 2) (isFloat_fl _)
  have hcor : Single.Grid.pinhole.imageToNearestIndices (v.camera.cartesianToImage p) =
      corners (fun k => ⌊v.camera.cartesianToImage p k⌋) (fun k => ⌈v.camera.cartesianToImage p k⌉) := by
    unfold Single.Grid.imageToNearestIndices corners
    dsimp only
    rw [pinhole_real hfl, pinhole_real hfl]
  rw [hcor] at c3 c4 c5
  obtain ⟨s', e, d1, d2, d3⟩ := sum_lip hc v.image (he 2) (fun k => ⌊v.camera.cartesianToImage p k⌋) (fun k => ⌈v.camera.cartesianToImage p k⌉)
  rw [c5] at d1
  obtain rfl := Option.some.inj d1
  have hup : v.computeUpdateAll logF p = some u := by
    unfold Single.CameraView.computeUpdateAll
    rw [if_neg]
    · exact c1
    · push Not
      constructor
      · show v.minRange ≤ p 2
        linarith [a2.1]
      · show p 2 ≤ v.maxRange
        linarith [a2.2]
  refine ⟨_, _, if Single.kEpsilon < |u| then u else 0, e, ?_, ?_, d2, ?_, fun hnone => ?_⟩
  · unfold Single.CameraView.cellChangeAll
    rw [hup]; rfl
  · have key : ∀ I E P : ℚ, |I - P| ≤ E → ⌊I⌋ ≤ ⌈I⌉ ∧ ⌈I⌉ ≤ ⌊I⌋ + 1 ∧ (⌊I⌋ : ℚ) ≤ P + E ∧ P - E ≤ (⌈I⌉ : ℚ) := by
      intro I E P hI
      have a := abs_le.1 hI
      exact ⟨Int.floor_le_ceil I, Int.ceil_le_floor_add_one I, (Int.floor_le I).trans (by linarith [a.2]), le_trans (by linarith [a.1]) (Int.le_ceil I)⟩
    intro k
    fin_cases k
    · exact key _ _ _ p1
    · exact key _ _ _ p2
  · have hu : |((if Single.kEpsilon < |u| then u else 0 : ℚ) : ℝ) - u| ≤ Single.kEpsilon := by
      split
      · rw [sub_self, abs_zero]; exact_mod_cast hk.le
      · rename_i hn
        push Not at hn
        rw [Rat.cast_zero, zero_sub, abs_neg]
        exact_mod_cast hn
    have e8 := abs_le.1 c6
    have e9 := abs_le.1 d3
    have e10 := abs_le.1 hu
    rw [add_div, abs_le]
    constructor <;> linarith [e8.1, e8.2, e9.1, e9.2, e10.1, e10.2]
  · rw [le_antisymm (c3 fun i hi m hm => by rw [hnone i hi] at hm; cases hm) (c4 fun i hi m hm => by rw [hnone i hi] at hm; cases hm)]
    simp

/-- A cell that is not within the camera's range is not changed. -/
theorem C99_outside (logF : ℚ → ℚ) (v : Single.CameraView) (hq : |normSq v.pose.q - 1| ≤ 1 / 100) (w : ℚ) (hw : 0 < w) (index : Index 3) (h : ∀ k, |index k| < 2 ^ 22) (M N : ℚ)
    (hM : ∀ k, |((index k : ℚ) + 1 / 2) * w| ≤ M) (hN : ∀ k, |v.pose.t k| ≤ N)
    (hout : exactCell v w index 2 < v.minRange - positionError M N ∨ v.maxRange + positionError M N < exactCell v w index 2) :
    v.cellChangeAll logF w index = some 0 := by
  have a := abs_le.1 (cell_err hq hw index h hM hN 2)
  unfold Single.CameraView.cellChangeAll Single.CameraView.computeUpdateAll
  rw [if_pos]
  · simp
  · rcases hout with h1 | h1
    · exact Or.inl (by show v.cellInCamera w index 2 < v.minRange; linarith [a.2])
    · exact Or.inr (by show v.maxRange < v.cellInCamera w index 2; linarith [a.1])

/-- **In front of the surface.** If all four pixels are in the image and measured at least three standard deviations more than the cell's depth, the exact sum is four times the
update of free space. -/
theorem C99_in_front (c : Single.RayConfig) (hc : c.Scaled) (im : Image ℚ) (depth : ℚ) (lo hi : Index 2)
    (h : ∀ i ∈ corners lo hi, ∃ measured, im.at i = some measured ∧ depth ≤ measured - 3 * c.rangeSigma) :
    Wavemap.sumUpdates ((corners lo hi).map (exactRay c im depth)) = some (4 * Real.log ((1 - c.scalingFree) / (1 + c.scalingFree))) := by
  have hsc : c.exact.Scaled := by
    unfold ContinuousRayConfig.Scaled ContinuousRayConfig.Valid Single.RayConfig.exact
    dsimp only
    exact ⟨⟨by exact_mod_cast hc.sigma, by exact_mod_cast hc.free.1, by exact_mod_cast hc.occupied.1⟩, by exact_mod_cast hc.free.2.1, by exact_mod_cast hc.occupied.2⟩
  have one : ∀ i ∈ corners lo hi, exactRay c im depth i = some (Real.log ((1 - c.scalingFree) / (1 + c.scalingFree))) := by
    intro i hi
    obtain ⟨m, h1, h2⟩ := h i hi
    unfold exactRay
    rw [h1]
    dsimp only
    obtain ⟨u, h3, -, -, -, h4⟩ := C42_ray_beam_partial c.exact hsc (depth : ℝ) (m : ℝ)
    rw [h3, h4]
    · rfl
    · have := (Rat.cast_le (K := ℝ)).2 h2
      push_cast at this
      exact this
  rw [List.map_congr_left one]
  unfold corners Wavemap.sumUpdates
  simp only [List.map_cons, List.map_nil, List.foldl_cons, List.foldl_nil]
  show some _ = some _
  congr 1
  ring

/-- **Behind the surface.** If all four pixels are in the image and the cell lies between one and three standard deviations behind what they measured, the exact sum is positive, at
least four times the update one standard deviation behind the surface. -/
theorem C99_behind (f : Single.Frame) (hf : SingleClearing.Usable f) (w : ℚ) (j : Index 3) (lo hi : Index 2)
    (h : ∀ i ∈ corners lo hi, ∃ measured, f.view.image.at i = some measured ∧ measured + f.view.ray.rangeSigma ≤ exactCell f.view w j 2 ∧
      exactCell f.view w j 2 ≤ measured + 3 * f.view.ray.rangeSigma) :
    ∃ u, Wavemap.sumUpdates ((corners lo hi).map (exactRay f.view.ray f.view.image (exactCell f.view w j 2))) = some u ∧
      0 < Real.log ((2 + f.view.ray.scalingOccupied) / (2 - f.view.ray.scalingOccupied)) ∧ 4 * Real.log ((2 + f.view.ray.scalingOccupied) / (2 - f.view.ray.scalingOccupied)) ≤ u := by
  have one : ∀ i ∈ corners lo hi, ∃ u, exactRay f.view.ray f.view.image (exactCell f.view w j 2) i = some u ∧
      0 < Real.log ((2 + f.view.ray.scalingOccupied) / (2 - f.view.ray.scalingOccupied)) ∧ Real.log ((2 + f.view.ray.scalingOccupied) / (2 - f.view.ray.scalingOccupied)) ≤ u := by
    intro i hi'
    obtain ⟨m, h1, h2, h3⟩ := h i hi'
    obtain ⟨u, k1, k2, k3⟩ := C97_behind f hf w j m h2 h3
    refine ⟨u, ?_, k2, k3⟩
    unfold exactRay
    rw [h1]
    exact k1
  obtain ⟨a, a1, a2, a3⟩ := one (lo 0, lo 1) (by simp [corners])
  obtain ⟨b, b1, -, b3⟩ := one (hi 0, lo 1) (by simp [corners])
  obtain ⟨c, c1, -, c3⟩ := one (lo 0, hi 1) (by simp [corners])
  obtain ⟨d, d1, -, d3⟩ := one (hi 0, hi 1) (by simp [corners])
  unfold corners
  simp only [List.map_cons, List.map_nil, a1, b1, c1, d1]
  refine ⟨_, rfl, a2, ?_⟩
  linarith

namespace SingleNeighborsCell

/-! ## Whole images -/

/-- The bound on the difference between the change of a cell and the exact sum of updates (C99_cell). -/
noncomputable def sumError (v : Single.CameraView) (M N : ℚ) : ℝ :=
  (5 / 2 ^ 12 + 72 * (positionError M N / v.ray.rangeSigma : ℚ)) / (1 - v.ray.scalingFree) + Single.kEpsilon

/-- The depth image sees the cell `j` by four pixels: it is in the box and within the range of the camera by more than the rounding error, and all sums of the exact updates by four
pixels that surround its projection satisfy `P`. -/
structure SeesAll (f : Single.Frame) (w M N : ℚ) (j : Index 3) (P : ℝ → Prop) : Prop where
  inBox : ∀ k, f.minIndex k ≤ j k ∧ j k ≤ f.maxIndex k
  small : ∀ k, |j k| < 2 ^ 22
  cell : ∀ k, |((j k : ℚ) + 1 / 2) * w| ≤ M
  position : ∀ k, |f.view.pose.t k| ≤ N
  near : f.view.minRange + positionError M N ≤ exactCell f.view w j 2
  far : exactCell f.view w j 2 ≤ f.view.maxRange - positionError M N
  front : 4 * positionError M N + Single.kEpsilon ≤ exactCell f.view w j 2
  pixels : ∀ lo hi exact, Surrounds f.view w j (positionError M N) lo hi →
    Wavemap.sumUpdates ((corners lo hi).map (exactRay f.view.ray f.view.image (exactCell f.view w j 2))) = some exact → P exact

theorem all_some {logF : ℚ → ℚ} (hl : IsLogSingle logF) {f : Single.Frame} (hf : SingleClearing.Usable f) (w : ℚ) (i : Index 3) :
    ∃ u, f.view.computeUpdateAll logF (f.view.cellInCamera w i) = some u := by
  unfold Single.CameraView.computeUpdateAll
  dsimp only
  split
  · exact ⟨0, rfl⟩
  · obtain ⟨u, -, -, h, -⟩ := C96_ray logF hl f.view.ray hf.scaled Single.Grid.pinhole f.view.image hf.image
      (f.view.camera.cartesianToImage (f.view.cellInCamera w i)) (f.view.camera.cartesianToSensorZ (f.view.cellInCamera w i)) (isFloat_fl _)
    exact ⟨u, h⟩

theorem all_cell {logF : ℚ → ℚ} (hl : IsLogSingle logF) {f : Single.Frame} (hf : SingleClearing.Usable f) {m : HashedBlocks} (hm : m.Wf) (i j : Index 3) :
    ∃ m' u, f.updateCellAll logF m i = some m' ∧ m'.Wf ∧ m'.config = m.config ∧ f.view.cellChangeAll logF m.config.minCellWidth i = some u ∧
      m'.getCellValue j = if j = i ∧ u ≠ 0 then clamp m.config.minLogOdds m.config.maxLogOdds (fl (m.getCellValue j + u)) else m.getCellValue j := by
  obtain ⟨x, hx⟩ := all_some hl hf m.config.minCellWidth i
  unfold Single.Frame.updateCellAll Single.CameraView.cellChangeAll
  rw [hx]
  simp only [Option.map_some, Option.some.injEq]
  by_cases hg : Single.kEpsilon < |x|
  · have hx0 : x ≠ 0 := by
      rintro rfl
      rw [abs_zero] at hg
      exact absurd hg (not_lt.2 SingleCamera.kEpsilon_pos.le)
    obtain ⟨h1, h2, -, h4⟩ := runRounded_value m hm (.add i x) j
    rw [if_pos hg, if_pos hg]
    refine ⟨_, x, rfl, h1, h2, rfl, ?_⟩
    rw [show (Rounded.hashedBlocksAdd fl m i x).getCellValue j = _ from h4]
    dsimp only
    by_cases hj : j = i
    · rw [if_pos hj, if_pos ⟨hj, hx0⟩]
    · rw [if_neg hj, if_neg (fun h => hj h.1)]
  · rw [if_neg hg, if_neg hg]
    exact ⟨m, 0, rfl, hm, rfl, rfl, by rw [if_neg (fun h => h.2 rfl)]⟩

theorem all_cells {logF : ℚ → ℚ} (hl : IsLogSingle logF) {f : Single.Frame} (hf : SingleClearing.Usable f) (j : Index 3) (l : List (Index 3)) (hl' : l.Nodup) :
    ∀ m : HashedBlocks, m.Wf →
    ∃ m' u, l.foldlM (f.updateCellAll logF) m = some m' ∧ m'.Wf ∧ m'.config = m.config ∧ f.view.cellChangeAll logF m.config.minCellWidth j = some u ∧
      m'.getCellValue j = if j ∈ l ∧ u ≠ 0 then clamp m.config.minLogOdds m.config.maxLogOdds (fl (m.getCellValue j + u)) else m.getCellValue j := by
  induction l with
  | nil =>
    intro m hm
    obtain ⟨-, u, -, -, -, h, -⟩ := all_cell hl hf hm j j
    exact ⟨m, u, rfl, hm, rfl, h, by simp⟩
  | cons i l ih =>
    intro m hm
    obtain ⟨hi, hn⟩ := List.nodup_cons.1 hl'
    obtain ⟨m1, u1, h1, w1, c1, x1, v1⟩ := all_cell hl hf hm i j
    obtain ⟨m2, u2, h2, w2, c2, x2, v2⟩ := ih hn m1 w1
    refine ⟨m2, u2, ?_, w2, c2.trans c1, by rw [c1] at x2; exact x2, ?_⟩
    · rw [List.foldlM_cons, h1]; exact h2
    · rw [v2, c1]
      by_cases hj : j = i
      · subst hj
        rw [c1, x1] at x2
        obtain rfl := Option.some.inj x2
        rw [if_neg (fun h => hi h.1), v1]
        simp
      · rw [if_neg (fun h => hj h.1)] at v1
        rw [v1]
        simp [hj]

/-- The change of a cell that is seen, by a whole image. -/
theorem all_map {logF : ℚ → ℚ} (hl : IsLogSingle logF) {f : Single.Frame} (hf : SingleClearing.Usable f) {m : HashedBlocks} (hm : m.Wf) (hw : 0 < m.config.minCellWidth)
    {j : Index 3} {M N : ℚ} {P : ℝ → Prop} (hs : SeesAll f m.config.minCellWidth M N j P) :
    ∃ (m' : HashedBlocks) (u : ℚ) (exact : ℝ), Single.Frame.updateMapAll logF m f = some m' ∧ m'.Wf ∧ m'.config = m.config ∧ P exact ∧ |(u : ℝ) - exact| ≤ sumError f.view M N ∧
      m'.getCellValue j = if u = 0 then m.getCellValue j else clamp m.config.minLogOdds m.config.maxLogOdds (fl (m.getCellValue j + u)) := by
  obtain ⟨l, h1, h2, h3⟩ := gridIndices_spec f.minIndex f.maxIndex hf.box
  obtain ⟨m', u, g1, g2, g3, g4, g5⟩ := all_cells hl hf j l h2 m hm
  obtain ⟨lo, hi, u', e, c1, c2, c3, c4, -⟩ := C99_cell logF hl f.view hf.scaled hf.focal hf.unit hf.image _ hw j hs.small M N hs.cell hs.position hs.near hs.far hs.front
  rw [g4] at c1
  obtain rfl := Option.some.inj c1
  refine ⟨m', u, e, ?_, g2, g3, hs.pixels lo hi e c2 c3, c4, ?_⟩
  · unfold Single.Frame.updateMapAll
    rw [h1]
    exact g1
  · rw [g5]
    simp [(h3 j).2 hs.inBox]

end SingleNeighborsCell

/-- **One image.** A depth image that sees a cell adds one number to its value, with one rounding and within the bounds: the sum of the exact updates by four pixels that surround
the projection of the cell, up to the error bound. -/
theorem C99_change (logF : ℚ → ℚ) (hl : IsLogSingle logF) (m : HashedBlocks) (hm : m.Wf) (hw : 0 < m.config.minCellWidth) (j : Index 3) (M N : ℚ) (f : Single.Frame)
    (hf : SingleClearing.Usable f) (P : ℝ → Prop) (hs : SeesAll f m.config.minCellWidth M N j P) :
    ∃ (m' : HashedBlocks) (u : ℚ) (exact : ℝ), Single.Frame.updateMapAll logF m f = some m' ∧ P exact ∧ |(u : ℝ) - exact| ≤ sumError f.view M N ∧
      m'.getCellValue j = if u = 0 then m.getCellValue j else clamp m.config.minLogOdds m.config.maxLogOdds (fl (m.getCellValue j + u)) := by
  obtain ⟨m', u, e, h1, -, -, h4, h5, h6⟩ := all_map hl hf hm hw hs
  exact ⟨m', u, e, h1, h4, h5, h6⟩

/-- **Clearing.** Every depth image that sees a cell with exact sums of at most `-δ` (and the error bound) lowers its value by `δ` less one rounding error, down to the minimum. -/
theorem C99_cleared_partial (logF : ℚ → ℚ) (hl : IsLogSingle logF) (m : HashedBlocks) (hm : m.Wf) (hc : m.config.isValid = true) (B : ℚ) (hlo : |m.config.minLogOdds| ≤ B)
    (hhi : |m.config.maxLogOdds| ≤ B) (j : Index 3) (hv : |m.getCellValue j| ≤ B) (M N δ : ℚ) (hδ : 0 < δ) (hround : (B + δ) / 2 ^ 24 ≤ δ) (frames : List Single.Frame)
    (hf : ∀ f ∈ frames, SingleClearing.Usable f ∧ SeesAll f m.config.minCellWidth M N j fun exact => exact ≤ -(δ + sumError f.view M N)) :
    ∃ m', frames.foldlM (Single.Frame.updateMapAll logF) m = some m' ∧ (frames ≠ [] → m.config.minLogOdds ≤ m'.getCellValue j) ∧
      m'.getCellValue j ≤ max m.config.minLogOdds (m.getCellValue j - frames.length * (δ - (B + δ) / 2 ^ 24)) := by
  simp only [MapBaseConfig.isValid, Bool.and_eq_true, decide_eq_true_eq] at hc
  obtain ⟨m', h1, h2, h3⟩ := SingleLidarClearing.lowered (Single.Frame.updateMapAll logF) m.config hc.2.le B hlo hhi j δ hδ frames
    (fun f hf' m1 w1 c1 => by
      obtain ⟨uf, sf⟩ := hf f hf'
      rw [← c1] at sf
      obtain ⟨m2, u, e, g1, g2, g3, g4, g5, g6⟩ := all_map hl uf w1 (by rw [c1]; exact hc.1) sf
      have hu : u ≤ -δ := by
        have := abs_le.1 g5
        have h6 : (u : ℝ) ≤ ((-δ : ℚ) : ℝ) := by push_cast; linarith [this.2]
        exact_mod_cast h6
      rw [if_neg (by linarith), c1] at g6
      exact ⟨m2, u, g1, g2, g3.trans c1, hu, g6⟩) m (m.getCellValue j) hm rfl hv (le_max_right _ _) (by linarith)
  exact ⟨m', h1, fun h => h2 (Or.inl h), h3⟩

/-- **Appearing.** Every depth image that sees a cell with exact sums of at least `δ` (and the error bound) raises its value by `δ` less one rounding error, up to the maximum. -/
theorem C99_appears_partial (logF : ℚ → ℚ) (hl : IsLogSingle logF) (m : HashedBlocks) (hm : m.Wf) (hc : m.config.isValid = true) (B : ℚ) (hlo : |m.config.minLogOdds| ≤ B)
    (hhi : |m.config.maxLogOdds| ≤ B) (j : Index 3) (hv : |m.getCellValue j| ≤ B) (M N δ : ℚ) (hδ : 0 < δ) (hround : (B + δ) / 2 ^ 24 ≤ δ) (frames : List Single.Frame)
    (hf : ∀ f ∈ frames, SingleClearing.Usable f ∧ SeesAll f m.config.minCellWidth M N j fun exact => δ + sumError f.view M N ≤ exact) :
    ∃ m', frames.foldlM (Single.Frame.updateMapAll logF) m = some m' ∧ (frames ≠ [] → m'.getCellValue j ≤ m.config.maxLogOdds) ∧
      min m.config.maxLogOdds (m.getCellValue j + frames.length * (δ - (B + δ) / 2 ^ 24)) ≤ m'.getCellValue j := by
  simp only [MapBaseConfig.isValid, Bool.and_eq_true, decide_eq_true_eq] at hc
  obtain ⟨m', h1, h2, h3⟩ := SingleLidarClearing.raised (Single.Frame.updateMapAll logF) m.config hc.2.le B hlo hhi j δ hδ frames
    (fun f hf' m1 w1 c1 => by
      obtain ⟨uf, sf⟩ := hf f hf'
      rw [← c1] at sf
      obtain ⟨m2, u, e, g1, g2, g3, g4, g5, g6⟩ := all_map hl uf w1 (by rw [c1]; exact hc.1) sf
      have hu : δ ≤ u := by
        have := abs_le.1 g5
        have h6 : (δ : ℝ) ≤ (u : ℝ) := by linarith [this.1]
        exact_mod_cast h6
      rw [if_neg (by linarith), c1] at g6
      exact ⟨m2, u, g1, g2, g3.trans c1, hu, g6⟩) m (m.getCellValue j) hm rfl hv (min_le_right _ _) (by linarith)
  exact ⟨m', h1, fun h => h2 (Or.inl h), h3⟩

/-- **Unseen cells keep their value.** A cell outside the box, beyond the range of the camera by more than the rounding error, or within it but with all pixels around its projection
outside the image, keeps its value. -/
theorem C99_unseen (logF : ℚ → ℚ) (hl : IsLogSingle logF) (m : HashedBlocks) (hm : m.Wf) (hw : 0 < m.config.minCellWidth) (f : Single.Frame) (hf : SingleClearing.Usable f)
    (j : Index 3) (M N : ℚ) (h : ∀ k, |j k| < 2 ^ 22) (hM : ∀ k, |((j k : ℚ) + 1 / 2) * m.config.minCellWidth| ≤ M) (hN : ∀ k, |f.view.pose.t k| ≤ N)
    (hout : (∃ k, j k < f.minIndex k ∨ f.maxIndex k < j k) ∨ exactCell f.view m.config.minCellWidth j 2 < f.view.minRange - positionError M N ∨
      f.view.maxRange + positionError M N < exactCell f.view m.config.minCellWidth j 2 ∨
      (f.view.minRange + positionError M N ≤ exactCell f.view m.config.minCellWidth j 2 ∧ exactCell f.view m.config.minCellWidth j 2 ≤ f.view.maxRange - positionError M N ∧
        4 * positionError M N + Single.kEpsilon ≤ exactCell f.view m.config.minCellWidth j 2 ∧
        ∀ lo hi, Surrounds f.view m.config.minCellWidth j (positionError M N) lo hi → ∀ i ∈ corners lo hi, f.view.image.at i = none)) :
    ∃ m', Single.Frame.updateMapAll logF m f = some m' ∧ m'.getCellValue j = m.getCellValue j := by
  obtain ⟨l, h1, h2, h3⟩ := gridIndices_spec f.minIndex f.maxIndex hf.box
  obtain ⟨m', u, g1, g2, g3, g4, g5⟩ := all_cells hl hf j l h2 m hm
  refine ⟨m', by unfold Single.Frame.updateMapAll; rw [h1]; exact g1, ?_⟩
  rw [g5, if_neg]
  rintro ⟨h4, h5⟩
  rcases hout with ⟨k, hk⟩ | ho | ho | ⟨a1, a2, a3, a4⟩
  · have := (h3 j).1 h4 k
    omega
  · rw [C99_outside logF f.view hf.unit _ hw j h M N hM hN (.inl ho)] at g4
    exact h5 (Option.some.inj g4).symm
  · rw [C99_outside logF f.view hf.unit _ hw j h M N hM hN (.inr ho)] at g4
    exact h5 (Option.some.inj g4).symm
  · obtain ⟨lo, hi, u', e, c1, c2, -, -, c5⟩ := C99_cell logF hl f.view hf.scaled hf.focal hf.unit hf.image _ hw j h M N hM hN a1 a2 a3
    rw [g4] at c1
    obtain rfl := Option.some.inj c1
    exact h5 (c5 (a4 lo hi c2))

/-! ## Example -/

namespace SingleNeighborsCell
open SingleClearing

theorem clearFrame_surrounds {lo hi : Index 2} (h : Surrounds clearFrame.view (1 / 8) ![2, -1, 31] (positionError 5 0) lo hi) :
    ∀ i ∈ corners lo hi, clearFrame.view.image.at i = some 5 := by
  have e0 : exactCell clearFrame.view (1 / 8) ![2, -1, 31] 0 = 5 / 16 := clearFrame_cell 0
  have e1 : exactCell clearFrame.view (1 / 8) ![2, -1, 31] 1 = -1 / 16 := clearFrame_cell 1
  have e2 : exactCell clearFrame.view (1 / 8) ![2, -1, 31] 2 = 63 / 16 := clearFrame_cell 2
  have hp : positionError 5 0 = 365 / 2 ^ 24 := by norm_num [positionError]
  obtain ⟨a1, a2, a3, a4⟩ := h 0
  obtain ⟨b1, b2, b3, b4⟩ := h 1
  have p0 : exactProjection clearFrame.view (1 / 8) ![2, -1, 31] 0 = 500 * (5 / 16) / (63 / 16) + 320 := by
    rw [← e0, ← e2]; rfl
  have p1 : exactProjection clearFrame.view (1 / 8) ![2, -1, 31] 1 = 500 * (-1 / 16) / (63 / 16) + 240 := by
    rw [← e1, ← e2]; rfl
  have q0 : imageError clearFrame.view (1 / 8) ![2, -1, 31] (positionError 5 0) 0 = axisError (365 / 2 ^ 24) 500 320 (5 / 16) (63 / 16) := by
    rw [← e0, ← e2, ← hp]; rfl
  have q1 : imageError clearFrame.view (1 / 8) ![2, -1, 31] (positionError 5 0) 1 = axisError (365 / 2 ^ 24) 500 240 (-1 / 16) (63 / 16) := by
    rw [← e1, ← e2, ← hp]; rfl
  rw [p0, q0] at a3 a4
  rw [p1, q1] at b3 b4
  norm_num [axisError, abs_of_neg] at a3 a4 b3 b4
  have c1 : lo 0 < 400 := by
    have : (lo 0 : ℚ) < 400 := by linarith
    exact_mod_cast this
  have c2 : 300 < hi 0 := by
    have : (300 : ℚ) < hi 0 := by linarith
    exact_mod_cast this
  have c3 : lo 1 < 300 := by
    have : (lo 1 : ℚ) < 300 := by linarith
    exact_mod_cast this
  have c4 : 200 < hi 1 := by
    have : (200 : ℚ) < hi 1 := by linarith
    exact_mod_cast this
  have key : ∀ i : Idx2, 0 ≤ i.1 → i.1 < 640 → 0 ≤ i.2 → i.2 < 480 → clearFrame.view.image.at i = some 5 := by
    intro i k1 k2 k3 k4
    unfold Image.at Image.inBounds
    rw [if_pos]
    · rfl
    · simp only [clearFrame, exampleView, Bool.and_eq_true, decide_eq_true_eq]
      exact ⟨⟨⟨k1, k3⟩, decide_eq_true k2⟩, decide_eq_true k4⟩
  intro i hi'
  simp only [corners, List.mem_cons, List.not_mem_nil, or_false] at hi'
  rcases hi' with rfl | rfl | rfl | rfl <;> exact key _ (by dsimp only; omega) (by dsimp only; omega) (by dsimp only; omega) (by dsimp only; omega)

theorem clearFrame_seesAll : SeesAll clearFrame (1 / 8) 5 0 ![2, -1, 31] fun exact => exact ≤ -((3 / 2 : ℚ) + sumError clearFrame.view 5 0) := by
  have hs := clearFrame_sees
  refine ⟨hs.inBox, hs.small, hs.cell, hs.position, hs.near, hs.far, hs.front, ?_⟩
  intro lo hi exact hsur hsum
  have e2 : exactCell clearFrame.view (1 / 8) ![2, -1, 31] 2 = 63 / 16 := clearFrame_cell 2
  have hp : positionError 5 0 = 365 / 2 ^ 24 := by norm_num [positionError]
  have hk : Single.kEpsilon ≤ 1 / 1000 := by decide +kernel
  rw [C99_in_front clearFrame.view.ray clearFrame_usable.scaled clearFrame.view.image _ lo hi (fun i hi' => ⟨5, clearFrame_surrounds hsur i hi', by
    rw [e2]; norm_num [clearFrame, exampleView]⟩)] at hsum
  obtain rfl := Option.some.inj hsum
  have hlog := Real.log_le_sub_one_of_pos (show (0 : ℝ) < 3 / 5 by norm_num)
  have el : (1 - ((clearFrame.view.ray.scalingFree : ℚ) : ℝ)) / (1 + (clearFrame.view.ray.scalingFree : ℚ)) = 3 / 5 := by norm_num [clearFrame, exampleView]
  rw [el]
  have hkR : ((Single.kEpsilon : ℚ) : ℝ) ≤ 1 / 1000 := by
    have := (Rat.cast_le (K := ℝ)).2 hk
    push_cast at this
    exact this
  have hce : sumError clearFrame.view 5 0 ≤ 1 / 50 := by
    unfold sumError
    rw [hp]
    norm_num [clearFrame, exampleView] at hkR ⊢
    linarith
  push_cast
  linarith

theorem wallFrame_surrounds {lo hi : Index 2} (h : Surrounds wallFrame.view (1 / 8) ![2, -1, 41] (positionError 6 0) lo hi) :
    ∀ i ∈ corners lo hi, wallFrame.view.image.at i = some 5 := by
  have e0 : exactCell wallFrame.view (1 / 8) ![2, -1, 41] 0 = 5 / 16 := wallFrame_wall 0
  have e1 : exactCell wallFrame.view (1 / 8) ![2, -1, 41] 1 = -1 / 16 := wallFrame_wall 1
  have e2 : exactCell wallFrame.view (1 / 8) ![2, -1, 41] 2 = 83 / 16 := wallFrame_wall 2
  have hp : positionError 6 0 = 438 / 2 ^ 24 := by norm_num [positionError]
  obtain ⟨a1, a2, a3, a4⟩ := h 0
  obtain ⟨b1, b2, b3, b4⟩ := h 1
  have p0 : exactProjection wallFrame.view (1 / 8) ![2, -1, 41] 0 = 500 * (5 / 16) / (83 / 16) + 320 := by
    rw [← e0, ← e2]; rfl
  have p1 : exactProjection wallFrame.view (1 / 8) ![2, -1, 41] 1 = 500 * (-1 / 16) / (83 / 16) + 240 := by
    rw [← e1, ← e2]; rfl
  have q0 : imageError wallFrame.view (1 / 8) ![2, -1, 41] (positionError 6 0) 0 = axisError (438 / 2 ^ 24) 500 320 (5 / 16) (83 / 16) := by
    rw [← e0, ← e2, ← hp]; rfl
  have q1 : imageError wallFrame.view (1 / 8) ![2, -1, 41] (positionError 6 0) 1 = axisError (438 / 2 ^ 24) 500 240 (-1 / 16) (83 / 16) := by
    rw [← e1, ← e2, ← hp]; rfl
  rw [p0, q0] at a3 a4
  rw [p1, q1] at b3 b4
  norm_num [axisError, abs_of_neg] at a3 a4 b3 b4
  have c1 : lo 0 < 400 := by
    have : (lo 0 : ℚ) < 400 := by linarith
    exact_mod_cast this
  have c2 : 300 < hi 0 := by
    have : (300 : ℚ) < hi 0 := by linarith
    exact_mod_cast this
  have c3 : lo 1 < 300 := by
    have : (lo 1 : ℚ) < 300 := by linarith
    exact_mod_cast this
  have c4 : 200 < hi 1 := by
    have : (200 : ℚ) < hi 1 := by linarith
    exact_mod_cast this
  have key : ∀ i : Idx2, 0 ≤ i.1 → i.1 < 640 → 0 ≤ i.2 → i.2 < 480 → wallFrame.view.image.at i = some 5 := by
    intro i k1 k2 k3 k4
    unfold Image.at Image.inBounds
    rw [if_pos]
    · rfl
    · simp only [wallFrame, exampleView, Bool.and_eq_true, decide_eq_true_eq]
      exact ⟨⟨⟨k1, k3⟩, decide_eq_true k2⟩, decide_eq_true k4⟩
  intro i hi'
  simp only [corners, List.mem_cons, List.not_mem_nil, or_false] at hi'
  rcases hi' with rfl | rfl | rfl | rfl <;> exact key _ (by dsimp only; omega) (by dsimp only; omega) (by dsimp only; omega) (by dsimp only; omega)

theorem wallFrame_seesAll : SeesAll wallFrame (1 / 8) 6 0 ![2, -1, 41] fun exact => (3 / 2 : ℚ) + sumError wallFrame.view 6 0 ≤ exact := by
  have hs := wallFrame_sees_wall
  refine ⟨hs.inBox, hs.small, hs.cell, hs.position, hs.near, hs.far, hs.front, ?_⟩
  intro lo hi exact hsur hsum
  have e2 : exactCell wallFrame.view (1 / 8) ![2, -1, 41] 2 = 83 / 16 := wallFrame_wall 2
  have hp : positionError 6 0 = 438 / 2 ^ 24 := by norm_num [positionError]
  have hk : Single.kEpsilon ≤ 1 / 1000 := by decide +kernel
  obtain ⟨u, h1, -, h3⟩ := C99_behind wallFrame wallFrame_usable (1 / 8) ![2, -1, 41] lo hi (fun i hi' => ⟨5, wallFrame_surrounds hsur i hi', by
    rw [e2]; norm_num [wallFrame, exampleView], by rw [e2]; norm_num [wallFrame, exampleView]⟩)
  rw [h1] at hsum
  obtain rfl := Option.some.inj hsum
  have hlog := Real.one_sub_inv_le_log_of_pos (show (0 : ℝ) < 5 / 3 by norm_num)
  have el : (2 + ((wallFrame.view.ray.scalingOccupied : ℚ) : ℝ)) / (2 - (wallFrame.view.ray.scalingOccupied : ℚ)) = 5 / 3 := by norm_num [wallFrame, exampleView]
  rw [el] at h3
  norm_num at hlog
  have hkR : ((Single.kEpsilon : ℚ) : ℝ) ≤ 1 / 1000 := by
    have := (Rat.cast_le (K := ℝ)).2 hk
    push_cast at this
    exact this
  have hce : sumError wallFrame.view 6 0 ≤ 1 / 40 := by
    unfold sumError
    rw [hp]
    norm_num [wallFrame, exampleView] at hkR ⊢
    linarith
  push_cast
  linarith

end SingleNeighborsCell
open SingleClearing

/-- A cell one metre in front of a wall, at the maximum of 4, is below zero after three images. -/
example : ∃ m', (List.replicate 3 clearFrame).foldlM (Single.Frame.updateMapAll exampleLog) (HashedBlocks.create ⟨1 / 8, -2, 4⟩ 4) = some m' ∧ m'.getCellValue ![2, -1, 31] < 0 := by
  have hv : (HashedBlocks.create ⟨1 / 8, -2, 4⟩ 4).getCellValue ![2, -1, 31] = 4 := rfl
  obtain ⟨m', h1, -, h3⟩ := C99_cleared_partial exampleLog exampleLog_ok (HashedBlocks.create ⟨1 / 8, -2, 4⟩ 4) List.nodup_nil (by decide +kernel) 4 (by norm_num [HashedBlocks.create])
    (by norm_num [HashedBlocks.create]) ![2, -1, 31] (by rw [hv]; norm_num) 5 0 (3 / 2) (by norm_num) (by norm_num) (List.replicate 3 clearFrame) (fun f hf => by
      obtain rfl := List.eq_of_mem_replicate hf
      exact ⟨clearFrame_usable, clearFrame_seesAll⟩)
  refine ⟨m', h1, h3.trans_lt ?_⟩
  rw [hv]
  norm_num [HashedBlocks.create]

/-- One image lowers the value by at least one and a half. -/
example : ∃ (m' : HashedBlocks) (u : ℚ) (exact : ℝ), Single.Frame.updateMapAll exampleLog (HashedBlocks.create ⟨1 / 8, -2, 4⟩ 3) clearFrame = some m' ∧
    exact ≤ -((3 / 2 : ℚ) + sumError clearFrame.view 5 0) ∧ |(u : ℝ) - exact| ≤ sumError clearFrame.view 5 0 ∧
    m'.getCellValue ![2, -1, 31] = if u = 0 then 3 else clamp (-2) 4 (fl (3 + u)) :=
  C99_change exampleLog exampleLog_ok (HashedBlocks.create ⟨1 / 8, -2, 4⟩ 3) List.nodup_nil (by norm_num [HashedBlocks.create]) ![2, -1, 31] 5 0 clearFrame clearFrame_usable _
    clearFrame_seesAll

example : ∃ m', Single.Frame.updateMapAll exampleLog (HashedBlocks.create ⟨1 / 8, -2, 4⟩ 3) clearFrame = some m' ∧ m'.getCellValue ![2, -1, 0] = 3 :=
  C99_unseen exampleLog exampleLog_ok (HashedBlocks.create ⟨1 / 8, -2, 4⟩ 3) List.nodup_nil (by norm_num [HashedBlocks.create]) clearFrame clearFrame_usable ![2, -1, 0] 1 0
    (by decide) (by intro k; fin_cases k <;> norm_num [HashedBlocks.create, abs_of_nonneg, abs_of_neg]) (by intro k; norm_num [clearFrame, exampleView])
    (Or.inr (Or.inl (by
      have e2 : exactCell clearFrame.view (1 / 8) ![2, -1, 0] 2 = 1 / 16 := by decide +kernel
      rw [show (HashedBlocks.create ⟨1 / 8, -2, 4⟩ 3).config.minCellWidth = 1 / 8 from rfl, e2]
      norm_num [positionError, clearFrame, exampleView])))

/-- A cell behind the surface of the wall, at the minimum of -2, is above two after three images. -/
example : ∃ m', (List.replicate 3 wallFrame).foldlM (Single.Frame.updateMapAll exampleLog) (HashedBlocks.create ⟨1 / 8, -2, 4⟩ (-2)) = some m' ∧ 2 < m'.getCellValue ![2, -1, 41] := by
  have hv : (HashedBlocks.create ⟨1 / 8, -2, 4⟩ (-2)).getCellValue ![2, -1, 41] = -2 := rfl
  obtain ⟨m', h1, -, h3⟩ := C99_appears_partial exampleLog exampleLog_ok (HashedBlocks.create ⟨1 / 8, -2, 4⟩ (-2)) List.nodup_nil (by decide +kernel) 4 (by norm_num [HashedBlocks.create])
    (by norm_num [HashedBlocks.create]) ![2, -1, 41] (by rw [hv]; norm_num) 6 0 (3 / 2) (by norm_num) (by norm_num) (List.replicate 3 wallFrame) (fun f hf => by
      obtain rfl := List.eq_of_mem_replicate hf
      exact ⟨wallFrame_usable, wallFrame_seesAll⟩)
  refine ⟨m', h1, lt_of_lt_of_le ?_ h3⟩
  rw [hv]
  norm_num [HashedBlocks.create]

end Wavemap
