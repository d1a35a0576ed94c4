import Verif.Model.SingleClearing
import Verif.Props.SingleCell
import Verif.Props.SingleMaps
import Verif.Props.WaveletIntegrator
/-!
# C97: a camera changes the occupancy of what it sees, in single precision
-/
namespace Wavemap
namespace SingleClearing
open Single SingleCamera SingleMeasurement SinglePoses SingleCell

/-! ## Specification -/

/-- The bound on the difference between the change of a cell and the exact update (C93). -/
noncomputable def changeError (v : CameraView) (M N : ℚ) : ℝ :=
  (1 / 2 ^ 12 + 18 * (positionError M N / v.ray.rangeSigma : ℚ)) / (1 - v.ray.scalingFree) + Single.kEpsilon

/-- The pixel `i` is next to the exact projection of the cell `j`. -/
def NearPixel (v : CameraView) (w M N : ℚ) (j : Index 3) (i : Idx2) : Prop :=
  |(i.1 : ℚ) - (v.camera.fx * exactCell v w j 0 / exactCell v w j 2 + v.camera.cx)|
    ≤ pixelError (positionError M N) v.camera.fx v.camera.cx (exactCell v w j 0) (exactCell v w j 2) ∧
  |(i.2 : ℚ) - (v.camera.fy * exactCell v w j 1 / exactCell v w j 2 + v.camera.cy)|
    ≤ pixelError (positionError M N) v.camera.fy v.camera.cy (exactCell v w j 1) (exactCell v w j 2)

/-- A depth image with a usable camera, weights at most one and floats as distances. -/
structure Usable (f : Frame) : Prop where
  scaled : f.view.ray.Scaled
  focal : 0 < f.view.camera.fx ∧ 0 < f.view.camera.fy
  unit : |normSq f.view.pose.q - 1| ≤ 1 / 100
  image : ∀ i m, f.view.image.at i = some m → IsFloat m
  box : ∀ k, f.minIndex k ≤ f.maxIndex k

/-- The depth image sees the cell `j`: it is in the box and within the range of the camera by more than the rounding error, and all pixels next to its projection are in the image,
with exact updates that satisfy `P`. -/
structure Sees (f : Frame) (w M N : ℚ) (j : Index 3) (P : ℝ → Prop) : Prop where
  inBox : ∀ k, f.minIndex k ≤ j k ∧ j k ≤ f.maxIndex k
  small : ∀ k, |j k| < 2 ^ 22
  cell : ∀ k, |((j k : ℚ) + 1 / 2) * w| ≤ M
  position : ∀ k, |f.view.pose.t k| ≤ N
  near : f.view.minRange + positionError M N ≤ exactCell f.view w j 2
  far : exactCell f.view w j 2 ≤ f.view.maxRange - positionError M N
  front : 4 * positionError M N + Single.kEpsilon ≤ exactCell f.view w j 2
  pixels : ∀ i, NearPixel f.view w M N j i → ∃ measured exact, f.view.image.at i = some measured ∧
    f.view.ray.exact.distanceUpdate (exactCell f.view w j 2) measured = some exact ∧ P exact

/-! ## Proofs -/

theorem update_some {logF : ℚ → ℚ} (hl : IsLogSingle logF) {f : Frame} (hf : Usable f) (p : Point 3) : ∃ u, f.view.computeUpdate logF p = some u := by
  unfold CameraView.computeUpdate
  dsimp only
  split
  · exact ⟨0, rfl⟩
  · cases h : f.view.image.at (f.view.camera.cartesianToNearestIndex p 0, f.view.camera.cartesianToNearestIndex p 1) with
    | none => exact ⟨0, rfl⟩
    | some m =>
      obtain ⟨u, -, h1, -⟩ := C92_ray logF hl f.view.ray hf.scaled (f.view.camera.cartesianToSensorZ p) m (hf.image _ m h)
      exact ⟨u, h1⟩

/-- One cell. -/
theorem cell_step {logF : ℚ → ℚ} (hl : IsLogSingle logF) {f : Frame} (hf : Usable f) {m : HashedBlocks} (hm : m.Wf) (i j : Index 3) :
    ∃ m' u, f.updateCell logF m i = some m' ∧ m'.Wf ∧ m'.config = m.config ∧ f.view.cellChange logF m.config.minCellWidth i = some u ∧
      m'.getCellValue j = if j = i ∧ u ≠ 0 then clamp m.config.minLogOdds m.config.maxLogOdds (fl (m.getCellValue j + u)) else m.getCellValue j := by
  obtain ⟨x, hx⟩ := update_some hl hf (f.view.cellInCamera m.config.minCellWidth i)
  unfold Frame.updateCell CameraView.cellChange
  rw [hx]
  simp only [Option.map_some, Option.some.injEq]
  by_cases hg : Single.kEpsilon < |x|
  · have hx0 : x ≠ 0 := by
      rintro rfl
      rw [abs_zero] at hg
      exact absurd hg (not_lt.2 SingleCamera.kEpsilon_pos.le)
    obtain ⟨h1, h2, -, h4⟩ := runRounded_value m hm (.add i x) j
    rw [if_pos hg, if_pos hg]
    refine ⟨_, x, rfl, h1, h2, rfl, ?_⟩
    rw [show (Rounded.hashedBlocksAdd fl m i x).getCellValue j = _ from h4]
    dsimp only
    by_cases hj : j = i
    · rw [if_pos hj, if_pos ⟨hj, hx0⟩]
    · rw [if_neg hj, if_neg (fun h => hj h.1)]
  · rw [if_neg hg, if_neg hg]
    exact ⟨m, 0, rfl, hm, rfl, rfl, by rw [if_neg (fun h => h.2 rfl)]⟩

theorem cells_step {logF : ℚ → ℚ} (hl : IsLogSingle logF) {f : Frame} (hf : Usable f) (j : Index 3) (l : List (Index 3)) (hl' : l.Nodup) : ∀ m : HashedBlocks, m.Wf →
    ∃ m' u, l.foldlM (f.updateCell logF) m = some m' ∧ m'.Wf ∧ m'.config = m.config ∧ f.view.cellChange logF m.config.minCellWidth j = some u ∧
      m'.getCellValue j = if j ∈ l ∧ u ≠ 0 then clamp m.config.minLogOdds m.config.maxLogOdds (fl (m.getCellValue j + u)) else m.getCellValue j := by
  induction l with
  | nil =>
    intro m hm
    obtain ⟨-, u, -, -, -, h, -⟩ := cell_step hl hf hm j j
    exact ⟨m, u, rfl, hm, rfl, h, by simp⟩
  | cons i l ih =>
    intro m hm
    obtain ⟨hi, hn⟩ := List.nodup_cons.1 hl'
    obtain ⟨m1, u1, h1, w1, c1, x1, v1⟩ := cell_step hl hf hm i j
    obtain ⟨m2, u2, h2, w2, c2, x2, v2⟩ := ih hn m1 w1
    refine ⟨m2, u2, ?_, w2, c2.trans c1, by rw [c1] at x2; exact x2, ?_⟩
    · rw [List.foldlM_cons, h1]; exact h2
    · rw [v2, c1]
      by_cases hj : j = i
      · subst hj
        rw [c1, x1] at x2
        obtain rfl := Option.some.inj x2
        rw [if_neg (fun h => hi h.1), v1]
        simp
      · rw [if_neg (fun h => hj h.1)] at v1
        rw [v1]
        simp [hj]

theorem map_step {logF : ℚ → ℚ} (hl : IsLogSingle logF) {f : Frame} (hf : Usable f) {m : HashedBlocks} (hm : m.Wf) (j : Index 3) (hj : ∀ k, f.minIndex k ≤ j k ∧ j k ≤ f.maxIndex k) :
    ∃ m' u, Frame.updateMap logF m f = some m' ∧ m'.Wf ∧ m'.config = m.config ∧ f.view.cellChange logF m.config.minCellWidth j = some u ∧
      m'.getCellValue j = if u ≠ 0 then clamp m.config.minLogOdds m.config.maxLogOdds (fl (m.getCellValue j + u)) else m.getCellValue j := by
  obtain ⟨l, h1, h2, h3⟩ := gridIndices_spec f.minIndex f.maxIndex hf.box
  obtain ⟨m', u, g1, g2, g3, g4, g5⟩ := cells_step hl hf j l h2 m hm
  refine ⟨m', u, ?_, g2, g3, g4, ?_⟩
  · unfold Frame.updateMap
    rw [h1]
    exact g1
  · rw [g5]
    simp [(h3 j).2 hj]

theorem sees_change {logF : ℚ → ℚ} (hl : IsLogSingle logF) {f : Frame} (hf : Usable f) {w M N : ℚ} (hw : 0 < w) {j : Index 3} {P : ℝ → Prop} (hs : Sees f w M N j P) :
    ∃ (u : ℚ) (exact : ℝ), f.view.cellChange logF w j = some u ∧ P exact ∧ |(u : ℝ) - exact| ≤ changeError f.view M N := by
  obtain ⟨i, u, h1, h2, h3, h4⟩ := C93_cell logF hl f.view hf.scaled hf.focal hf.unit w hw j hs.small M N hs.cell hs.position hs.near hs.far hs.front
  obtain ⟨m, e, g1, g2, g3⟩ := hs.pixels i ⟨h2, h3⟩
  rw [g1] at h4
  obtain ⟨e', g4, g5⟩ := h4
  rw [g2] at g4
  obtain rfl := Option.some.inj g4
  exact ⟨u, e, h1, g3, g5⟩

theorem contrib_behind {f : ℝ} (h1 : 1 ≤ f) (h3 : f ≤ 3) : 1 / 4 ≤ rangeContrib f := by
  unfold rangeContrib gaussCumulative
  rw [if_neg (by linarith), if_neg (by linarith), if_neg (by linarith), if_pos h3, if_neg (by linarith)]
  split
  · rename_i h
    have a : 0 ≤ f - 1 := by linarith
    have b : 0 ≤ 2 - f := by linarith
    nlinarith [mul_nonneg a b, mul_nonneg (mul_nonneg a b) a, mul_nonneg (mul_nonneg a b) b]
  · rename_i h
    rw [if_pos (by linarith)]
    push Not at h
    obtain ⟨t, rfl⟩ : ∃ t, f = t + 3 := ⟨f - 3, by ring⟩
    have a : 0 ≤ -t := by linarith
    have b : 0 ≤ t + 1 := by linarith
    nlinarith [mul_nonneg a b, mul_nonneg (mul_nonneg a a) a, mul_nonneg (mul_nonneg a a) b, mul_nonneg (mul_nonneg a b) b]

theorem ray_behind (c : ContinuousRayConfig) (h : c.Scaled) {depth measured : ℝ} (h1 : measured + c.rangeSigma ≤ depth) (h3 : depth ≤ measured + 3 * c.rangeSigma) :
    ∃ u, c.distanceUpdate depth measured = some u ∧ Real.log ((2 + c.scalingOccupied) / (2 - c.scalingOccupied)) ≤ u := by
  obtain ⟨⟨hs, hf, ho⟩, hf1, ho1⟩ := h
  unfold ContinuousRayConfig.distanceUpdate ContinuousRayConfig.thresholdBack ContinuousRayConfig.thresholdFront
  rw [if_neg (by linarith), if_neg (by linarith)]
  unfold ContinuousRayConfig.fullBeamUpdate
  dsimp only
  set f := (depth - measured) / c.rangeSigma with hfdef
  have f1 : 1 ≤ f := by rw [hfdef, le_div_iff₀ hs]; linarith
  have f3 : f ≤ 3 := by rw [hfdef, div_le_iff₀ hs]; linarith
  have k1 := contrib_behind f1 f3
  obtain ⟨k2, k3⟩ := contrib_pos (show 0 < f by linarith) (show f < 6 by linarith)
  rw [if_neg (by linarith)]
  have p1 : c.scalingOccupied * rangeContrib f + 1 / 2 < 1 := by nlinarith
  refine ⟨_, logOdds_some (by nlinarith) p1, ?_⟩
  have e : (2 + c.scalingOccupied) / (2 - c.scalingOccupied) = (c.scalingOccupied * (1 / 4) + 1 / 2) / (1 - (c.scalingOccupied * (1 / 4) + 1 / 2)) := by
    rw [div_eq_div_iff (by linarith) (by linarith)]
    ring
  rw [e]
  exact logOdds_mono (by nlinarith) (by nlinarith) p1

end SingleClearing
open Single SingleCamera SingleMeasurement SinglePoses SingleCell SingleClearing

/-- **One image.** A depth image that sees a cell adds one number to its value, with one rounding and within the bounds: the exact update of a pixel next to the projection of the
cell, up to the error bound. -/
theorem C97_change (logF : ℚ → ℚ) (hl : IsLogSingle logF) (m : HashedBlocks) (hm : m.Wf) (hw : 0 < m.config.minCellWidth) (j : Index 3) (M N : ℚ) (f : Frame) (hf : Usable f)
    (P : ℝ → Prop) (hs : Sees f m.config.minCellWidth M N j P) :
    ∃ (m' : HashedBlocks) (u : ℚ) (exact : ℝ), Frame.updateMap logF m f = some m' ∧ P exact ∧ |(u : ℝ) - exact| ≤ changeError f.view M N ∧
      m'.getCellValue j = if u = 0 then m.getCellValue j else clamp m.config.minLogOdds m.config.maxLogOdds (fl (m.getCellValue j + u)) := by
  obtain ⟨m2, u, g1, g2, g3, g4, g5⟩ := map_step hl hf hm j hs.inBox
  obtain ⟨u', e, c1, c2, c3⟩ := sees_change hl hf hw hs
  rw [g4] at c1
  obtain rfl := Option.some.inj c1
  exact ⟨m2, u, e, g1, c2, c3, by rw [g5]; simp only [ne_eq, ite_not]⟩

/-- **Clearing.** Every depth image that sees a cell with an exact update of at most `-δ` (and the error bound) lowers its value by `δ` less one rounding error, down to the
minimum. -/
theorem C97_cleared_partial (logF : ℚ → ℚ) (hl : IsLogSingle logF) (m : HashedBlocks) (hm : m.Wf) (hc : m.config.isValid = true) (B : ℚ) (hlo : |m.config.minLogOdds| ≤ B)
    (hhi : |m.config.maxLogOdds| ≤ B) (j : Index 3) (hv : |m.getCellValue j| ≤ B) (M N δ : ℚ) (hδ : 0 < δ) (hround : (B + δ) / 2 ^ 24 ≤ δ) (frames : List Frame)
    (hf : ∀ f ∈ frames, Usable f ∧ Sees f m.config.minCellWidth M N j fun exact => exact ≤ -(δ + changeError f.view M N)) :
    ∃ m', frames.foldlM (Frame.updateMap logF) m = some m' ∧ (frames ≠ [] → m.config.minLogOdds ≤ m'.getCellValue j) ∧
      m'.getCellValue j ≤ max m.config.minLogOdds (m.getCellValue j - frames.length * (δ - (B + δ) / 2 ^ 24)) := by
  simp only [MapBaseConfig.isValid, Bool.and_eq_true, decide_eq_true_eq] at hc
  have hlt : m.config.minLogOdds ≤ m.config.maxLogOdds := hc.2.le
  have hw : 0 < m.config.minCellWidth := hc.1
  suffices key : ∀ (frames : List Frame) (m1 : HashedBlocks) (a : ℚ), m1.Wf → m1.config = m.config → |m1.getCellValue j| ≤ B → m1.getCellValue j ≤ max m.config.minLogOdds a →
      (∀ f ∈ frames, Usable f ∧ Sees f m.config.minCellWidth M N j fun exact => exact ≤ -(δ + changeError f.view M N)) →
      ∃ m', frames.foldlM (Frame.updateMap logF) m1 = some m' ∧ (frames ≠ [] ∨ m.config.minLogOdds ≤ m1.getCellValue j → m.config.minLogOdds ≤ m'.getCellValue j) ∧
        m'.getCellValue j ≤ max m.config.minLogOdds (a - frames.length * (δ - (B + δ) / 2 ^ 24)) by
    obtain ⟨m', h1, h2, h3⟩ := key frames m (m.getCellValue j) hm rfl hv (le_max_right _ _) hf
    exact ⟨m', h1, fun h => h2 (Or.inl h), h3⟩
  intro frames
  induction frames with
  | nil =>
    intro m1 a _ _ _ h4 _
    exact ⟨m1, rfl, fun h => by simpa using h, by simpa using h4⟩
  | cons f frames ih =>
    intro m1 a h1 h2 h3 h4 h5
    obtain ⟨uf, sf⟩ := h5 f (List.mem_cons_self ..)
    obtain ⟨m2, u, g1, g2, g3, g4, g5⟩ := map_step hl uf h1 j sf.inBox
    obtain ⟨u', e, c1, c2, c3⟩ := sees_change hl uf hw sf
    rw [h2] at g4
    rw [g4] at c1
    obtain rfl := Option.some.inj c1
    have hu : u ≤ -δ := by
      have := abs_le.1 c3
      have h6 : (u : ℝ) ≤ ((-δ : ℚ) : ℝ) := by push_cast; linarith [this.2]
      exact_mod_cast h6
    rw [if_pos (by linarith), h2, clamp_eq hlt] at g5
    have hfl : fl (m1.getCellValue j + u) ≤ m1.getCellValue j - (δ - (B + δ) / 2 ^ 24) := by
      have k1 := fl_mono (show m1.getCellValue j + u ≤ m1.getCellValue j + -δ by linarith)
      have k2 := (abs_le.1 (fl_err (m1.getCellValue j + -δ))).2
      have k3 : |m1.getCellValue j + -δ| / 2 ^ 24 ≤ (B + δ) / 2 ^ 24 := by
        refine div_le_div_of_nonneg_right ((abs_add_le _ _).trans ?_) (by norm_num)
        rw [abs_neg, abs_of_pos hδ]
        linarith
      linarith
    have hb : |m2.getCellValue j| ≤ B := by
      rw [g5, ← clamp_eq hlt]
      exact clamp_within hlt hlo hhi _
    have hstep : m2.getCellValue j ≤ max m.config.minLogOdds (a - (δ - (B + δ) / 2 ^ 24)) := by
      rw [g5]
      refine max_le (le_max_left _ _) ((min_le_left _ _).trans (hfl.trans ?_))
      rcases le_max_iff.1 h4 with h | h
      · exact le_trans (by linarith) (le_max_left _ _)
      · exact le_trans (by linarith) (le_max_right _ _)
    obtain ⟨m3, k1, k2, k3⟩ := ih m2 (a - (δ - (B + δ) / 2 ^ 24)) g2 (g3.trans h2) hb hstep (fun f hf => h5 f (List.mem_cons_of_mem _ hf))
    refine ⟨m3, ?_, fun _ => k2 (Or.inr ?_), k3.trans (le_of_eq ?_)⟩
    · rw [List.foldlM_cons, g1]; exact k1
    · rw [g5]; exact le_max_left _ _
    · rw [List.length_cons]; push_cast; ring_nf

/-- **Enough images** clear the cell: it has the minimum exactly. -/
theorem C97_free_partial (logF : ℚ → ℚ) (hl : IsLogSingle logF) (m : HashedBlocks) (hm : m.Wf) (hc : m.config.isValid = true) (B : ℚ) (hlo : |m.config.minLogOdds| ≤ B)
    (hhi : |m.config.maxLogOdds| ≤ B) (j : Index 3) (hv : |m.getCellValue j| ≤ B) (M N δ : ℚ) (hδ : 0 < δ) (hround : (B + δ) / 2 ^ 24 ≤ δ) (frames : List Frame) (hne : frames ≠ [])
    (hf : ∀ f ∈ frames, Usable f ∧ Sees f m.config.minCellWidth M N j fun exact => exact ≤ -(δ + changeError f.view M N))
    (hn : m.getCellValue j - m.config.minLogOdds ≤ frames.length * (δ - (B + δ) / 2 ^ 24)) :
    ∃ m', frames.foldlM (Frame.updateMap logF) m = some m' ∧ m'.getCellValue j = m.config.minLogOdds := by
  obtain ⟨m', h1, h2, h3⟩ := C97_cleared_partial logF hl m hm hc B hlo hhi j hv M N δ hδ hround frames hf
  refine ⟨m', h1, le_antisymm (h3.trans (max_le le_rfl (by linarith))) (h2 hne)⟩

/-- **Appearing.** Every depth image that sees a cell with an exact update of at least `δ` (and the error bound) raises its value by `δ` less one rounding error, up to the
maximum. -/
theorem C97_appears_partial (logF : ℚ → ℚ) (hl : IsLogSingle logF) (m : HashedBlocks) (hm : m.Wf) (hc : m.config.isValid = true) (B : ℚ) (hlo : |m.config.minLogOdds| ≤ B)
    (hhi : |m.config.maxLogOdds| ≤ B) (j : Index 3) (hv : |m.getCellValue j| ≤ B) (M N δ : ℚ) (hδ : 0 < δ) (hround : (B + δ) / 2 ^ 24 ≤ δ) (frames : List Frame)
    (hf : ∀ f ∈ frames, Usable f ∧ Sees f m.config.minCellWidth M N j fun exact => δ + changeError f.view M N ≤ exact) :
    ∃ m', frames.foldlM (Frame.updateMap logF) m = some m' ∧ (frames ≠ [] → m'.getCellValue j ≤ m.config.maxLogOdds) ∧
      min m.config.maxLogOdds (m.getCellValue j + frames.length * (δ - (B + δ) / 2 ^ 24)) ≤ m'.getCellValue j := by
  simp only [MapBaseConfig.isValid, Bool.and_eq_true, decide_eq_true_eq] at hc
  have hlt : m.config.minLogOdds ≤ m.config.maxLogOdds := hc.2.le
  have hw : 0 < m.config.minCellWidth := hc.1
  suffices key : ∀ (frames : List Frame) (m1 : HashedBlocks) (a : ℚ), m1.Wf → m1.config = m.config → |m1.getCellValue j| ≤ B → min m.config.maxLogOdds a ≤ m1.getCellValue j →
      (∀ f ∈ frames, Usable f ∧ Sees f m.config.minCellWidth M N j fun exact => δ + changeError f.view M N ≤ exact) →
      ∃ m', frames.foldlM (Frame.updateMap logF) m1 = some m' ∧ (frames ≠ [] ∨ m1.getCellValue j ≤ m.config.maxLogOdds → m'.getCellValue j ≤ m.config.maxLogOdds) ∧
        min m.config.maxLogOdds (a + frames.length * (δ - (B + δ) / 2 ^ 24)) ≤ m'.getCellValue j by
    obtain ⟨m', h1, h2, h3⟩ := key frames m (m.getCellValue j) hm rfl hv (min_le_right _ _) hf
    exact ⟨m', h1, fun h => h2 (Or.inl h), h3⟩
  intro frames
  induction frames with
  | nil =>
    intro m1 a _ _ _ h4 _
    exact ⟨m1, rfl, fun h => by simpa using h, by simpa using h4⟩
  | cons f frames ih =>
    intro m1 a h1 h2 h3 h4 h5
    obtain ⟨uf, sf⟩ := h5 f (List.mem_cons_self ..)
    obtain ⟨m2, u, g1, g2, g3, g4, g5⟩ := map_step hl uf h1 j sf.inBox
    obtain ⟨u', e, c1, c2, c3⟩ := sees_change hl uf hw sf
    rw [h2] at g4
    rw [g4] at c1
    obtain rfl := Option.some.inj c1
    have hu : δ ≤ u := by
      have := abs_le.1 c3
      have h6 : (δ : ℝ) ≤ (u : ℝ) := by linarith [this.1]
      exact_mod_cast h6
    rw [if_pos (by linarith), h2, clamp_eq hlt] at g5
    have hfl : m1.getCellValue j + (δ - (B + δ) / 2 ^ 24) ≤ fl (m1.getCellValue j + u) := by
      have k1 := fl_mono (show m1.getCellValue j + δ ≤ m1.getCellValue j + u by linarith)
      have k2 := (abs_le.1 (fl_err (m1.getCellValue j + δ))).1
      have k3 : |m1.getCellValue j + δ| / 2 ^ 24 ≤ (B + δ) / 2 ^ 24 := by
        refine div_le_div_of_nonneg_right ((abs_add_le _ _).trans ?_) (by norm_num)
        rw [abs_of_pos hδ]
        linarith
      linarith
    have hb : |m2.getCellValue j| ≤ B := by
      rw [g5, ← clamp_eq hlt]
      exact clamp_within hlt hlo hhi _
    have hstep : min m.config.maxLogOdds (a + (δ - (B + δ) / 2 ^ 24)) ≤ m2.getCellValue j := by
      rw [g5]
      refine le_trans ?_ (le_max_right _ _)
      refine le_min ?_ (min_le_left _ _)
      rcases min_le_iff.1 h4 with h | h
      · exact (min_le_left _ _).trans (by linarith)
      · exact (min_le_right _ _).trans (by linarith)
    obtain ⟨m3, k1, k2, k3⟩ := ih m2 (a + (δ - (B + δ) / 2 ^ 24)) g2 (g3.trans h2) hb hstep (fun f hf => h5 f (List.mem_cons_of_mem _ hf))
    refine ⟨m3, ?_, fun _ => k2 (Or.inr ?_), le_trans (le_of_eq ?_) k3⟩
    · rw [List.foldlM_cons, g1]; exact k1
    · rw [g5]; exact max_le hlt (min_le_right _ _)
    · rw [List.length_cons]; push_cast; ring_nf

/-- **Unseen cells** keep their values exactly: cells that are not in the box, not within the range of the camera, or whose projection is next to no pixel of the image. -/
theorem C97_unseen (logF : ℚ → ℚ) (hl : IsLogSingle logF) (m : HashedBlocks) (hm : m.Wf) (hw : 0 < m.config.minCellWidth) (f : Frame) (hf : Usable f) (j : Index 3) (M N : ℚ)
    (hs : ∀ k, |j k| < 2 ^ 22) (hM : ∀ k, |((j k : ℚ) + 1 / 2) * m.config.minCellWidth| ≤ M) (hN : ∀ k, |f.view.pose.t k| ≤ N)
    (h : ¬(∀ k, f.minIndex k ≤ j k ∧ j k ≤ f.maxIndex k) ∨
      exactCell f.view m.config.minCellWidth j 2 < f.view.minRange - positionError M N ∨ f.view.maxRange + positionError M N < exactCell f.view m.config.minCellWidth j 2 ∨
      (f.view.minRange + positionError M N ≤ exactCell f.view m.config.minCellWidth j 2 ∧ exactCell f.view m.config.minCellWidth j 2 ≤ f.view.maxRange - positionError M N ∧
        4 * positionError M N + Single.kEpsilon ≤ exactCell f.view m.config.minCellWidth j 2 ∧ ∀ i, NearPixel f.view m.config.minCellWidth M N j i → f.view.image.at i = none)) :
    ∃ m', Frame.updateMap logF m f = some m' ∧ m'.getCellValue j = m.getCellValue j := by
  obtain ⟨l, h1, h2, h3⟩ := gridIndices_spec f.minIndex f.maxIndex hf.box
  obtain ⟨m', u, g1, g2, g3, g4, g5⟩ := cells_step hl hf j l h2 m hm
  refine ⟨m', by unfold Frame.updateMap; rw [h1]; exact g1, ?_⟩
  rw [g5, if_neg]
  rintro ⟨k1, k2⟩
  have hz : f.view.cellChange logF m.config.minCellWidth j = some 0 := by
    rcases h with h | h | h | ⟨a1, a2, a3, a4⟩
    · exact absurd ((h3 j).1 k1) h
    · exact C93_outside logF f.view hf.unit _ hw j hs M N hM hN (Or.inl h)
    · exact C93_outside logF f.view hf.unit _ hw j hs M N hM hN (Or.inr h)
    · obtain ⟨i, u', b1, b2, b3, b4⟩ := C93_cell logF hl f.view hf.scaled hf.focal hf.unit _ hw j hs M N hM hN a1 a2 a3
      rw [a4 i ⟨b2, b3⟩] at b4
      rw [b1, b4]
  rw [hz] at g4
  exact k2 (Option.some.inj g4).symm

/-- **In front of the surface.** If all pixels next to the projection of a cell measured at least three standard deviations more than its depth, the exact update is that of
free space. -/
theorem C97_in_front (f : Frame) (hf : Usable f) (w : ℚ) (j : Index 3) (measured : ℚ) (h : exactCell f.view w j 2 ≤ measured - 3 * f.view.ray.rangeSigma) :
    f.view.ray.exact.distanceUpdate (exactCell f.view w j 2) measured = some (Real.log ((1 - f.view.ray.scalingFree) / (1 + f.view.ray.scalingFree))) := by
  have hs := hf.scaled
  have hsc : f.view.ray.exact.Scaled := by
    unfold ContinuousRayConfig.Scaled ContinuousRayConfig.Valid RayConfig.exact
    dsimp only
    exact ⟨⟨by exact_mod_cast hs.sigma, by exact_mod_cast hs.free.1, by exact_mod_cast hs.occupied.1⟩, by exact_mod_cast hs.free.2.1, by exact_mod_cast hs.occupied.2⟩
  obtain ⟨u, h1, -, -, -, h2⟩ := C42_ray_beam_partial f.view.ray.exact hsc ((exactCell f.view w j 2 : ℚ) : ℝ) (measured : ℝ)
  rw [h1, h2]
  · rfl
  · have := (Rat.cast_le (K := ℝ)).2 h
    push_cast at this
    exact this

/-- **Behind the surface.** If a pixel next to the projection of a cell measured between one and three standard deviations less than its depth, the exact update is at least this
positive number. -/
theorem C97_behind (f : Frame) (hf : Usable f) (w : ℚ) (j : Index 3) (measured : ℚ) (h1 : measured + f.view.ray.rangeSigma ≤ exactCell f.view w j 2)
    (h3 : exactCell f.view w j 2 ≤ measured + 3 * f.view.ray.rangeSigma) :
    ∃ u, f.view.ray.exact.distanceUpdate (exactCell f.view w j 2) measured = some u ∧ 0 < Real.log ((2 + f.view.ray.scalingOccupied) / (2 - f.view.ray.scalingOccupied)) ∧
      Real.log ((2 + f.view.ray.scalingOccupied) / (2 - f.view.ray.scalingOccupied)) ≤ u := by
  have hs := hf.scaled
  have hsc : f.view.ray.exact.Scaled := by
    unfold ContinuousRayConfig.Scaled ContinuousRayConfig.Valid RayConfig.exact
    dsimp only
    exact ⟨⟨by exact_mod_cast hs.sigma, by exact_mod_cast hs.free.1, by exact_mod_cast hs.occupied.1⟩, by exact_mod_cast hs.free.2.1, by exact_mod_cast hs.occupied.2⟩
  have g1 := (Rat.cast_le (K := ℝ)).2 h1
  have g3 := (Rat.cast_le (K := ℝ)).2 h3
  push_cast at g1 g3
  obtain ⟨u, k1, k2⟩ := ray_behind f.view.ray.exact hsc (depth := ((exactCell f.view w j 2 : ℚ) : ℝ)) (measured := (measured : ℝ)) g1 g3
  refine ⟨u, k1, Real.log_pos ?_, k2⟩
  have o1 : (0 : ℝ) < f.view.ray.scalingOccupied := by exact_mod_cast hs.occupied.1
  have o2 : (f.view.ray.scalingOccupied : ℝ) ≤ 1 := by exact_mod_cast hs.occupied.2
  rw [lt_div_iff₀ (by linarith)]
  linarith

namespace SingleClearing

/-- Bounds that are accepted but too large: an occupied cell of a map with bounds of a thousand. -/
def largeMap : HashedBlocks := HashedBlocksOp.runRounded (HashedBlocks.create ⟨1 / 8, -1000, 1000⟩ 0) (.set ![2, -1, 31] 1000)

/-- The camera of the example of C93, with a small weight of free space. -/
def weakFrame : Frame := ⟨{ exampleView with ray := ⟨1 / 8, 1 / 2 ^ 18, 1 / 2⟩ }, ![2, -1, 31], ![2, -1, 31]⟩

theorem weakFrame_usable : Usable weakFrame where
  scaled := ⟨by norm_num [weakFrame], ⟨by norm_num [weakFrame], by norm_num [weakFrame], 1, -18, by norm_num, by norm_num [weakFrame]⟩, by norm_num [weakFrame], by norm_num [weakFrame]⟩
  focal := by norm_num [weakFrame, exampleView]
  unit := by norm_num [weakFrame, exampleView, SinglePoses.normSq]
  image := fun i m h => by
    unfold Image.at at h
    split at h
    · have e : (5 : ℚ) = m := Option.some.inj h
      rw [← e]
      exact ⟨5, 0, by norm_num, by norm_num⟩
    · exact absurd h (by simp)
  box := fun k => le_rfl

theorem weak_change {logF : ℚ → ℚ} (hl : IsLogSingle logF) : ∃ u, weakFrame.view.cellChange logF (1 / 8) ![2, -1, 31] = some u ∧ u < 0 ∧ -(1 / 2 ^ 15) < u := by
  have b1 : 0 < weakFrame.view.ray.freeProbability := by decide +kernel
  have b2 : weakFrame.view.ray.freeProbability < 1 := by decide +kernel
  have x1 : oddsOf weakFrame.view.ray.freeProbability ≤ 1 - 1 / 2 ^ 18 := by decide +kernel
  have x2 : 1 - 1 / 2 ^ 16 ≤ oddsOf weakFrame.view.ray.freeProbability := by decide +kernel
  have hk : Single.kEpsilon < 1 / 2 ^ 19 := by decide +kernel
  have hu : weakFrame.view.computeUpdate logF (weakFrame.view.cellInCamera (1 / 8) ![2, -1, 31]) = some (logF (oddsOf weakFrame.view.ray.freeProbability)) := by
    have e1 : ¬(weakFrame.view.camera.cartesianToSensorZ (weakFrame.view.cellInCamera (1 / 8) ![2, -1, 31]) < weakFrame.view.minRange ∨
        weakFrame.view.maxRange < weakFrame.view.camera.cartesianToSensorZ (weakFrame.view.cellInCamera (1 / 8) ![2, -1, 31])) := by decide +kernel
    have e2 : weakFrame.view.image.at (weakFrame.view.camera.cartesianToNearestIndex (weakFrame.view.cellInCamera (1 / 8) ![2, -1, 31]) 0,
        weakFrame.view.camera.cartesianToNearestIndex (weakFrame.view.cellInCamera (1 / 8) ![2, -1, 31]) 1) = some 5 := by decide +kernel
    have e3 : ¬weakFrame.view.ray.thresholdBack < fl (weakFrame.view.camera.cartesianToSensorZ (weakFrame.view.cellInCamera (1 / 8) ![2, -1, 31]) - 5) := by decide +kernel
    have e4 : weakFrame.view.camera.cartesianToSensorZ (weakFrame.view.cellInCamera (1 / 8) ![2, -1, 31]) < fl (5 - weakFrame.view.ray.thresholdFront) := by decide +kernel
    unfold CameraView.computeUpdate
    dsimp only
    rw [if_neg e1, e2]
    dsimp only
    unfold RayConfig.distanceUpdate
    rw [if_neg e3, if_pos e4]
    exact logOdds_eq logF b1 b2
  generalize oddsOf weakFrame.view.ray.freeProbability = x at *
  have hx : 0 < x := by linarith
  have hxR : (0 : ℝ) < x := by exact_mod_cast hx
  have x1R := (Rat.cast_le (K := ℝ)).2 x1
  have x2R := (Rat.cast_le (K := ℝ)).2 x2
  push_cast at x1R x2R
  have l1 := Real.log_le_sub_one_of_pos hxR
  have l2 := Real.one_sub_inv_le_log_of_pos hxR
  have hinv : (x : ℝ)⁻¹ ≤ 1 + 1 / 2 ^ 15 - 1 / 2 ^ 18 := by
    rw [inv_le_iff_one_le_mul₀ hxR]
    nlinarith
  have hneg : Real.log x < 0 := by linarith
  have ha := abs_le.1 (hl.accurate x hx)
  rw [abs_of_neg hneg] at ha
  have u1 : (logF x : ℝ) ≤ -(1 / 2 ^ 19) := by linarith [ha.2]
  have u2 : -(1 / 2 ^ 15) < (logF x : ℝ) := by linarith [ha.1]
  have v1 : logF x ≤ -(1 / 2 ^ 19) := by
    have : (logF x : ℝ) ≤ ((-(1 / 2 ^ 19) : ℚ) : ℝ) := by push_cast; exact u1
    exact_mod_cast this
  have v2 : -(1 / 2 ^ 15) < logF x := by
    have : ((-(1 / 2 ^ 15) : ℚ) : ℝ) < (logF x : ℝ) := by push_cast; exact u2
    exact_mod_cast this
  have hn : logF x < 0 := lt_of_le_of_lt v1 (by norm_num)
  refine ⟨logF x, ?_, hn, v2⟩
  unfold CameraView.cellChange
  rw [hu, Option.map_some, if_pos]
  rw [abs_of_neg hn]
  linarith

end SingleClearing

/-- **Large bounds.** With bounds of a thousand, an occupied cell that the camera sees as free again and again is never cleared, although every image has a negative update: adding
it is lost in rounding. -/
theorem C97_large_bounds_fails (logF : ℚ → ℚ) (hl : IsLogSingle logF) : largeMap.config.isValid = true ∧ Usable weakFrame ∧
    (∃ u, weakFrame.view.cellChange logF largeMap.config.minCellWidth ![2, -1, 31] = some u ∧ u < 0) ∧
    ∀ n, ∃ m', (List.replicate n weakFrame).foldlM (Frame.updateMap logF) largeMap = some m' ∧ m'.getCellValue ![2, -1, 31] = 1000 := by
  have hw0 : (HashedBlocks.create ⟨1 / 8, -1000, 1000⟩ 0).Wf := List.nodup_nil
  obtain ⟨w1, c1, -, v1⟩ := runRounded_value (HashedBlocks.create ⟨1 / 8, -1000, 1000⟩ 0) hw0 (.set ![2, -1, 31] 1000) ![2, -1, 31]
  have v1' : largeMap.getCellValue ![2, -1, 31] = 1000 := v1.trans (if_pos rfl)
  obtain ⟨u, hu, hneg, hbig⟩ := weak_change hl
  refine ⟨by decide +kernel, weakFrame_usable, ⟨u, hu, hneg⟩, fun n => ?_⟩
  suffices key : ∀ (n : Nat) (m : HashedBlocks), m.Wf → m.config = ⟨1 / 8, -1000, 1000⟩ → m.getCellValue ![2, -1, 31] = 1000 →
      ∃ m', (List.replicate n weakFrame).foldlM (Frame.updateMap logF) m = some m' ∧ m'.getCellValue ![2, -1, 31] = 1000 from key n largeMap w1 c1 v1'
  intro n
  induction n with
  | zero => exact fun m _ _ h => ⟨m, rfl, h⟩
  | succ n ih =>
    intro m h1 h2 h3
    obtain ⟨m2, u', g1, g2, g3, g4, g5⟩ := map_step hl weakFrame_usable h1 ![2, -1, 31] (fun k => ⟨le_rfl, le_rfl⟩)
    rw [h2] at g4
    rw [hu] at g4
    obtain rfl := Option.some.inj g4
    have hfl : fl (1000 + u) = 1000 := by
      have e := fl_eq (x := 1000 + u) (k := 16384000) (e := -14) (by norm_num; rw [abs_of_pos (by linarith)]; linarith)
        (by norm_num; rw [abs_of_pos (by linarith)]; linarith) (by norm_num; rw [abs_lt]; constructor <;> linarith)
      rw [e]; norm_num
    rw [if_pos hneg.ne, h3, h2, hfl] at g5
    have g5' : m2.getCellValue ![2, -1, 31] = 1000 := g5.trans (by decide +kernel)
    obtain ⟨m3, k1, k2⟩ := ih m2 g2 (g3.trans h2) g5'
    exact ⟨m3, by rw [List.replicate_succ, List.foldlM_cons, g1]; exact k1, k2⟩

/-! ## Example -/

namespace SingleClearing

/-- The camera of the example of C93 sees the cell one metre in front of the wall. -/
def clearFrame : Frame := ⟨exampleView, ![0, -4, 0], ![4, 4, 40]⟩

theorem clearFrame_usable : Usable clearFrame where
  scaled := ⟨by norm_num [clearFrame, exampleView], ⟨by norm_num [clearFrame, exampleView], by norm_num [clearFrame, exampleView], 1, -2, by norm_num,
    by norm_num [clearFrame, exampleView]⟩, by norm_num [clearFrame, exampleView], by norm_num [clearFrame, exampleView]⟩
  focal := by norm_num [clearFrame, exampleView]
  unit := by norm_num [clearFrame, exampleView, SinglePoses.normSq]
  image := weakFrame_usable.image
  box := by decide

theorem clearFrame_cell (k : Fin 3) : exactCell clearFrame.view (1 / 8) ![2, -1, 31] k = (![5 / 16, -1 / 16, 63 / 16] : Point 3) k := by
  revert k
  decide +kernel

theorem clearFrame_sees : Sees clearFrame (1 / 8) 5 0 ![2, -1, 31] fun exact => exact ≤ -((3 / 8 : ℚ) + changeError clearFrame.view 5 0) := by
  have e0 : exactCell clearFrame.view (1 / 8) ![2, -1, 31] 0 = 5 / 16 := clearFrame_cell 0
  have e1 : exactCell clearFrame.view (1 / 8) ![2, -1, 31] 1 = -1 / 16 := clearFrame_cell 1
  have e2 : exactCell clearFrame.view (1 / 8) ![2, -1, 31] 2 = 63 / 16 := clearFrame_cell 2
  have hp : positionError 5 0 = 365 / 2 ^ 24 := by norm_num [positionError]
  have hk : Single.kEpsilon ≤ 1 / 1000 := by decide +kernel
  refine ⟨by decide, by decide, ?_, ?_, ?_, ?_, ?_, ?_⟩
  · intro k; fin_cases k <;> norm_num [abs_of_nonneg, abs_of_neg]
  · intro k; norm_num [clearFrame, exampleView]
  · rw [e2, hp]; norm_num [clearFrame, exampleView]
  · rw [e2, hp]; norm_num [clearFrame, exampleView]
  · rw [e2, hp]; norm_num at hk ⊢; linarith
  · rintro i ⟨h2, h3⟩
    rw [e0, e2, hp] at h2
    rw [e1, e2, hp] at h3
    have b2 := abs_le.1 h2
    have b3 := abs_le.1 h3
    norm_num [clearFrame, exampleView, pixelError, abs_of_neg] at b2 b3
    have i1 : 0 ≤ i.1 ∧ i.1 < 640 := by
      constructor
      · have : (-1 : ℚ) < i.1 := by linarith [b2.1]
        have : (-1 : Int) < i.1 := by exact_mod_cast this
        omega
      · have : (i.1 : ℚ) < 640 := by linarith [b2.2]
        exact_mod_cast this
    have i2 : 0 ≤ i.2 ∧ i.2 < 480 := by
      constructor
      · have : (-1 : ℚ) < i.2 := by linarith [b3.1]
        have : (-1 : Int) < i.2 := by exact_mod_cast this
        omega
      · have : (i.2 : ℚ) < 480 := by linarith [b3.2]
        exact_mod_cast this
    have him : clearFrame.view.image.at i = some 5 := by
      unfold Image.at Image.inBounds
      rw [if_pos]
      · rfl
      · simp only [clearFrame, exampleView, Bool.and_eq_true, decide_eq_true_eq]
        exact ⟨⟨⟨i1.1, i2.1⟩, decide_eq_true i1.2⟩, decide_eq_true i2.2⟩
    refine ⟨5, _, him, C97_in_front clearFrame clearFrame_usable (1 / 8) ![2, -1, 31] 5 (by rw [e2]; norm_num [clearFrame, exampleView]), ?_⟩
    have hlog := Real.log_le_sub_one_of_pos (show (0 : ℝ) < 3 / 5 by norm_num)
    have el : (1 - ((clearFrame.view.ray.scalingFree : ℚ) : ℝ)) / (1 + (clearFrame.view.ray.scalingFree : ℚ)) = 3 / 5 := by norm_num [clearFrame, exampleView]
    rw [el]
    have hkR : ((Single.kEpsilon : ℚ) : ℝ) ≤ 1 / 1000 := by
      have := (Rat.cast_le (K := ℝ)).2 hk
      push_cast at this
      exact this
    have hce : changeError clearFrame.view 5 0 ≤ 1 / 50 := by
      unfold changeError
      rw [hp]
      norm_num [clearFrame, exampleView] at hkR ⊢
      linarith
    push_cast
    linarith

/-- The same camera sees a cell behind the surface of the wall. -/
def wallFrame : Frame := ⟨exampleView, ![0, -4, 0], ![4, 4, 44]⟩

theorem wallFrame_usable : Usable wallFrame := ⟨clearFrame_usable.scaled, clearFrame_usable.focal, clearFrame_usable.unit, clearFrame_usable.image, by decide⟩

theorem wallFrame_wall (k : Fin 3) : exactCell wallFrame.view (1 / 8) ![2, -1, 41] k = (![5 / 16, -1 / 16, 83 / 16] : Point 3) k := by
  revert k
  decide +kernel

theorem wallFrame_sees_wall : Sees wallFrame (1 / 8) 6 0 ![2, -1, 41] fun exact => (3 / 8 : ℚ) + changeError wallFrame.view 6 0 ≤ exact := by
  have e0 : exactCell wallFrame.view (1 / 8) ![2, -1, 41] 0 = 5 / 16 := wallFrame_wall 0
  have e1 : exactCell wallFrame.view (1 / 8) ![2, -1, 41] 1 = -1 / 16 := wallFrame_wall 1
  have e2 : exactCell wallFrame.view (1 / 8) ![2, -1, 41] 2 = 83 / 16 := wallFrame_wall 2
  have hp : positionError 6 0 = 438 / 2 ^ 24 := by norm_num [positionError]
  have hk : Single.kEpsilon ≤ 1 / 1000 := by decide +kernel
  refine ⟨by decide, by decide, ?_, ?_, ?_, ?_, ?_, ?_⟩
  · intro k; fin_cases k <;> norm_num [abs_of_nonneg, abs_of_neg]
  · intro k; norm_num [wallFrame, exampleView]
  · rw [e2, hp]; norm_num [wallFrame, exampleView]
  · rw [e2, hp]; norm_num [wallFrame, exampleView]
  · rw [e2, hp]; norm_num at hk ⊢; linarith
  · rintro i ⟨h2, h3⟩
    rw [e0, e2, hp] at h2
    rw [e1, e2, hp] at h3
    have b2 := abs_le.1 h2
    have b3 := abs_le.1 h3
    norm_num [wallFrame, exampleView, pixelError, abs_of_neg] at b2 b3
    have i1 : 0 ≤ i.1 ∧ i.1 < 640 := by
      constructor
      · have : (-1 : ℚ) < i.1 := by linarith [b2.1]
        have : (-1 : Int) < i.1 := by exact_mod_cast this
        omega
      · have : (i.1 : ℚ) < 640 := by linarith [b2.2]
        exact_mod_cast this
    have i2 : 0 ≤ i.2 ∧ i.2 < 480 := by
      constructor
      · have : (-1 : ℚ) < i.2 := by linarith [b3.1]
        have : (-1 : Int) < i.2 := by exact_mod_cast this
        omega
      · have : (i.2 : ℚ) < 480 := by linarith [b3.2]
        exact_mod_cast this
    have him : wallFrame.view.image.at i = some 5 := by
      unfold Image.at Image.inBounds
      rw [if_pos]
      · rfl
      · simp only [wallFrame, exampleView, Bool.and_eq_true, decide_eq_true_eq]
        exact ⟨⟨⟨i1.1, i2.1⟩, decide_eq_true i1.2⟩, decide_eq_true i2.2⟩
    obtain ⟨u, hu1, -, hu3⟩ := C97_behind wallFrame wallFrame_usable (1 / 8) ![2, -1, 41] 5 (by rw [e2]; norm_num [wallFrame, exampleView]) (by rw [e2]; norm_num [wallFrame, exampleView])
    refine ⟨5, u, him, hu1, ?_⟩
    have hlog := Real.one_sub_inv_le_log_of_pos (show (0 : ℝ) < 5 / 3 by norm_num)
    have el : (2 + ((wallFrame.view.ray.scalingOccupied : ℚ) : ℝ)) / (2 - (wallFrame.view.ray.scalingOccupied : ℚ)) = 5 / 3 := by norm_num [wallFrame, exampleView]
    rw [el] at hu3
    norm_num at hlog
    have hkR : ((Single.kEpsilon : ℚ) : ℝ) ≤ 1 / 1000 := by
      have := (Rat.cast_le (K := ℝ)).2 hk
      push_cast at this
      exact this
    have hce : changeError wallFrame.view 6 0 ≤ 1 / 50 := by
      unfold changeError
      rw [hp]
      norm_num [wallFrame, exampleView] at hkR ⊢
      linarith
    push_cast
    linarith

end SingleClearing

/-- Seventeen images clear an occupied cell of a map with the default bounds. -/
example : ∃ m', (List.replicate 17 clearFrame).foldlM (Frame.updateMap exampleLog) (HashedBlocksOp.runRounded (HashedBlocks.create ⟨1 / 8, -2, 4⟩ 0) (.set ![2, -1, 31] 4)) = some m' ∧
    m'.getCellValue ![2, -1, 31] = -2 := by
  have hw0 : (HashedBlocks.create ⟨1 / 8, -2, 4⟩ 0).Wf := List.nodup_nil
  obtain ⟨w1, c1, -, v1⟩ := runRounded_value (HashedBlocks.create ⟨1 / 8, -2, 4⟩ 0) hw0 (.set ![2, -1, 31] 4) ![2, -1, 31]
  have v1' := v1.trans (if_pos rfl)
  have hc : (HashedBlocksOp.runRounded (HashedBlocks.create ⟨1 / 8, -2, 4⟩ 0) (.set ![2, -1, 31] 4)).config = ⟨1 / 8, -2, 4⟩ := c1
  have := C97_free_partial exampleLog exampleLog_ok _ w1 (by decide +kernel) 4 (by rw [hc]; norm_num) (by rw [hc]; norm_num) ![2, -1, 31] (by rw [v1']; norm_num) 5 0 (3 / 8) (by norm_num)
    (by norm_num) (List.replicate 17 clearFrame) (by simp) (fun f hf => by
      obtain rfl := (List.mem_replicate.1 hf).2
      exact ⟨clearFrame_usable, by rw [hc]; exact clearFrame_sees⟩) (by rw [v1', hc]; norm_num)
  rwa [hc] at this

/-- Seventeen images mark a free cell behind the surface of the wall as occupied. -/
example : ∃ m', (List.replicate 17 wallFrame).foldlM (Frame.updateMap exampleLog) (HashedBlocksOp.runRounded (HashedBlocks.create ⟨1 / 8, -2, 4⟩ 0) (.set ![2, -1, 41] (-2))) = some m' ∧
    m'.getCellValue ![2, -1, 41] = 4 := by
  have hw0 : (HashedBlocks.create ⟨1 / 8, -2, 4⟩ 0).Wf := List.nodup_nil
  obtain ⟨w1, c1, -, v1⟩ := runRounded_value (HashedBlocks.create ⟨1 / 8, -2, 4⟩ 0) hw0 (.set ![2, -1, 41] (-2)) ![2, -1, 41]
  have v1' := v1.trans (if_pos rfl)
  have hc : (HashedBlocksOp.runRounded (HashedBlocks.create ⟨1 / 8, -2, 4⟩ 0) (.set ![2, -1, 41] (-2))).config = ⟨1 / 8, -2, 4⟩ := c1
  obtain ⟨m', h1, h2, h3⟩ := C97_appears_partial exampleLog exampleLog_ok _ w1 (by decide +kernel) 4 (by rw [hc]; norm_num) (by rw [hc]; norm_num) ![2, -1, 41]
    (by rw [v1']; norm_num [abs_of_neg]) 6 0 (3 / 8) (by norm_num) (by norm_num) (List.replicate 17 wallFrame) (fun f hf => by
      obtain rfl := (List.mem_replicate.1 hf).2
      exact ⟨wallFrame_usable, by rw [hc]; exact wallFrame_sees_wall⟩)
  refine ⟨m', h1, le_antisymm (by have := h2 (by simp); rwa [hc] at this) ?_⟩
  rw [v1', hc] at h3
  refine le_trans ?_ h3
  norm_num

/-- A cell of the box behind the camera keeps its value. -/
example : ∃ m', Frame.updateMap exampleLog (HashedBlocks.create ⟨1 / 8, -2, 4⟩ 3) clearFrame = some m' ∧ m'.getCellValue ![2, -1, 0] = 3 :=
  C97_unseen exampleLog exampleLog_ok (HashedBlocks.create ⟨1 / 8, -2, 4⟩ 3) List.nodup_nil (by norm_num [HashedBlocks.create]) clearFrame clearFrame_usable ![2, -1, 0] 1 0
    (by decide) (by intro k; fin_cases k <;> norm_num [HashedBlocks.create, abs_of_nonneg, abs_of_neg]) (by intro k; norm_num [clearFrame, exampleView])
    (Or.inr (Or.inl (by decide +kernel)))

example : ∃ (m' : HashedBlocks) (u : ℚ), Frame.updateMap exampleLog (HashedBlocks.create ⟨1 / 8, -2, 4⟩ 3) clearFrame = some m' ∧ (u : ℝ) ≤ -(3 / 8) ∧
    m'.getCellValue ![2, -1, 31] = if u = 0 then 3 else clamp (-2) 4 (fl (3 + u)) := by
  obtain ⟨m', u, e, h1, h2, h3, h4⟩ := C97_change exampleLog exampleLog_ok (HashedBlocks.create ⟨1 / 8, -2, 4⟩ 3) List.nodup_nil (by norm_num [HashedBlocks.create]) ![2, -1, 31] 5 0
    clearFrame clearFrame_usable _ clearFrame_sees
  refine ⟨m', u, h1, ?_, h4⟩
  have := abs_le.1 h3
  push_cast at h2
  linarith [this.2]

end Wavemap
