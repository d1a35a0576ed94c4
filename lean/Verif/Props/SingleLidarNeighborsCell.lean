import Verif.Model.SingleLidarNeighborsCell
import Verif.Props.SingleNeighborsCell
/-!
# C100: the update of cells by the four nearest pixels of a range image in single precision
-/
namespace Wavemap
namespace SingleLidarNeighborsCell
open SingleCamera SingleMeasurement SinglePoses SingleCell SingleLidar SingleLidarCell SingleNeighbors SingleLidarClearing
open SingleNeighborsCell (corners)

/-! ## Specification -/

/-- Along the axis `k` of the grid the angle `θ` lies between the centres of the pixels `lo` and `hi`, which are equal or adjacent, up to 6 microradians. -/
def Between (g : Single.Grid) (k : Fin 2) (lo hi : Int) (θ : ℝ) : Prop :=
  lo ≤ hi ∧ hi ≤ lo + 1 ∧ ((lo * g.scale k + g.offset k : ℚ) : ℝ) ≤ θ + 6 / 10 ^ 6 ∧ θ - 6 / 10 ^ 6 ≤ ((hi * g.scale k + g.offset k : ℚ) : ℝ)

/-- The direction of the point `q` lies in the square of pixels with the corners `lo` and `hi`. -/
def SurroundsDirection (g : Single.Grid) (lo hi : Index 2) (q : Point 3) : Prop :=
  ∃ elevation azimuth, IsAngle elevation (Wavemap.planarNorm fun k => q k) (q 2) ∧ Between g 0 (lo 0) (hi 0) elevation ∧
    IsAngle azimuth (q 0) (q 1) ∧ Between g 1 (lo 1) (hi 1) azimuth

/-- A scan as in C98 whose ranges are single precision numbers. -/
structure UsableScanAll (f : Single.Scan) (w M N : ℚ) : Prop extends UsableScan f w M N where
  image : ∀ i m, f.view.image.at i = some m → IsFloat m

/-- The bound on the difference between the change of a cell and the exact sum of updates. -/
noncomputable def sumError (v : Single.LidarView) : ℝ := 5 / 2 ^ 12 / (1 - v.ray.scalingFree) + Single.kEpsilon

/-- The scan sees the cell `j` by four pixels: it is in the box, off the axis and within range by more than the rounding error, and the sums of the exact updates by all squares of
pixels around its direction, for all distances within the rounding error, satisfy `P`. -/
structure SeesAll (f : Single.Scan) (w M N : ℚ) (j : Index 3) (P : ℝ → Prop) : Prop where
  inBox : SingleLidarClearing.InBox f j
  offAxis : OffAxis f w M N j
  sign : f.negativeZero j 0 = false
  near : f.view.minRange + rangeError (positionError M N) (exactRange f.view w j) ≤ exactRange f.view w j
  far : exactRange f.view w j ≤ f.view.maxRange - rangeError (positionError M N) (exactRange f.view w j)
  pixels : ∀ (q : Point 3) (lo hi : Index 2) (distance : ℚ) (exact : ℝ), (∀ k, |q k - exactCenter f.view w j k| ≤ positionError M N) → SurroundsDirection f.view.grid lo hi q →
    |(distance : ℝ) - exactRange f.view w j| ≤ rangeError (positionError M N) (exactRange f.view w j) →
    Wavemap.sumUpdates ((corners lo hi).map (exactRay f.view.ray f.view.image distance)) = some exact → P exact

/-! ## Proofs -/

theorem pixels_between {sqrtF : ℚ → ℚ} (hs : IsSqrtSingle sqrtF) {g : Single.Grid} (hg : ∀ i, 0 < g.scale i ∧ |g.offset i| ≤ 32 / 10) {p : Fin 3 → Single.Signed}
    (hp : ∀ k, (p k).Ok) (haxis : (p 1).value ≠ 0 ∨ (p 0).value ≠ 0) (hz : (p 0).value = 0 → (p 0).negative = false) :
    ∃ c lo hi, Single.sphericalToImage sqrtF p = some c ∧ g.imageToNearestIndices c = corners lo hi ∧ SurroundsDirection g lo hi fun k => (p k).value := by
  obtain ⟨c, el, az, h1, h2, h3, h4, h5⟩ := C94_angles_partial sqrtF hs p hp haxis hz
  obtain ⟨-, ⟨lo, hi, k1, k2⟩, -⟩ := C96_pixels g (fun k => (hg k).1) c
  have key : ∀ (k : Fin 2) (θ : ℝ), |θ| ≤ Real.pi → |(c k : ℝ) - θ| ≤ elevationError → Between g k (lo k) (hi k) θ := by
    intro k θ b1 b2
    obtain ⟨l1, l2, l3, l4⟩ := k2 k
    have l3R := (Rat.cast_le (K := ℝ)).2 l3
    have l4R := (Rat.cast_le (K := ℝ)).2 l4
    rw [Rat.cast_add] at l3R
    rw [Rat.cast_sub] at l4R
    have ho : |(g.offset k : ℝ)| ≤ 32 / 10 := by
      have := (Rat.cast_le (K := ℝ)).2 (hg k).2
      push_cast at this
      exact this
    have hpi := Real.pi_lt_d2
    unfold elevationError at b2
    have d2 := abs_le.1 b2
    have hd : ((3 * |c k - g.offset k| / 2 ^ 23 : ℚ) : ℝ) ≤ 3 / 10 ^ 6 := by
      push_cast
      have d1 := abs_le.1 b1
      have d3 := abs_le.1 ho
      have : |(c k : ℝ) - g.offset k| ≤ 7 := by
        rw [abs_le]
        constructor <;> linarith [d1.1, d1.2, d2.1, d2.2, d3.1, d3.2]
      linarith
    exact ⟨l1, l2, l3R.trans (by linarith [d2.2]), le_trans (by linarith [d2.1]) l4R⟩
  refine ⟨c, lo, hi, h1, k1, el, az, h2, key 0 el h2.1 h3, h4, key 1 az h4.1 (h5.trans ?_)⟩
  unfold angleError elevationError; norm_num

end SingleLidarNeighborsCell
open SingleCamera SingleMeasurement SinglePoses SingleCell SingleLidar SingleLidarCell SingleNeighbors SingleLidarClearing SingleLidarNeighborsCell
open SingleNeighborsCell (corners)

/-- What a lidar adds to a cell within its range and off its vertical axis, with all neighbours: up to the stated error it is the sum of the exact updates by four pixels that surround
the direction of a point `q`; pixels outside the image add nothing; `q` is within rounding errors of the cell's centre, and so is the distance used. -/
theorem C100_cell_partial (logF sqrtF : ℚ → ℚ) (hl : IsLogSingle logF) (hs : IsSqrtSingle sqrtF) (hsf : ∀ x, IsFloat (sqrtF x)) (negativeZero : Fin 3 → Bool)
    (hz : negativeZero 0 = false) (v : Single.LidarView) (hc : v.ray.Scaled) (hg : ∀ i, 0 < v.grid.scale i ∧ |v.grid.offset i| ≤ 32 / 10)
    (hq : |normSq v.pose.q - 1| ≤ 1 / 100) (him : ∀ i m, v.image.at i = some m → IsFloat m) (w : ℚ) (hw : 0 < w) (index : Index 3) (h : ∀ k, |index k| < 2 ^ 22) (M N : ℚ)
    (hM : ∀ k, |((index k : ℚ) + 1 / 2) * w| ≤ M) (hN : ∀ k, |v.pose.t k| ≤ N)
    (haxis : positionError M N < |exactCenter v w index 0| ∨ positionError M N < |exactCenter v w index 1|)
    (hmin : v.minRange + rangeError (positionError M N) (exactRange v w index) ≤ exactRange v w index)
    (hmax : exactRange v w index ≤ v.maxRange - rangeError (positionError M N) (exactRange v w index)) :
    ∃ (q : Point 3) (lo hi : Index 2) (distance u : ℚ) (exact : ℝ), (∀ k, |q k - exactCenter v w index k| ≤ positionError M N) ∧ SurroundsDirection v.grid lo hi q ∧
      |(distance : ℝ) - norm3 fun k => q k| ≤ 3 / 2 ^ 24 * (norm3 fun k => (q k : ℝ)) ∧
      |(distance : ℝ) - exactRange v w index| ≤ rangeError (positionError M N) (exactRange v w index) ∧
      v.cellChangeAll logF sqrtF negativeZero w index = some u ∧
      Wavemap.sumUpdates ((corners lo hi).map (exactRay v.ray v.image distance)) = some exact ∧
      |(u : ℝ) - exact| ≤ 5 / 2 ^ 12 / (1 - v.ray.scalingFree) + Single.kEpsilon ∧ ((∀ i ∈ corners lo hi, v.image.at i = none) → u = 0) := by
  have he := center_close hq hw index h hM hN
  set δ := positionError M N with hδ
  have hk := SingleCamera.kEpsilon_pos
  set p := v.cellInSensor w index with hp
  have hd := depth_close hs he
  have hne : p 1 ≠ 0 ∨ p 0 ≠ 0 := by
    rcases haxis with h | h
    · right
      intro h0
      have := he 0
      rw [h0, zero_sub, abs_neg] at this
      linarith
    · left
      intro h0
      have := he 1
      rw [h0, zero_sub, abs_neg] at this
      linarith
  obtain ⟨c, lo, hi, g1, g2, g3⟩ := pixels_between hs hg (p := fun k => Single.Signed.with (negativeZero k) (p k)) (fun k => Signed.with_ok _ _) hne
    (fun h0 => by
      have h0' : p 0 = 0 := h0
      simp [Single.Signed.with, h0', hz])
  obtain ⟨u, -, s, c1, -, -, c3, c4, c5, c6⟩ := C96_ray logF hl v.ray hc v.grid v.image him c (Single.sphericalDepth sqrtF p) (hsf _)
  have hup : v.computeUpdateAll logF sqrtF negativeZero p = some u := by
    have hcond : ¬(Single.sphericalDepth sqrtF p < v.minRange ∨ v.maxRange < Single.sphericalDepth sqrtF p) := by
      have a := abs_le.1 hd
      unfold exactRange at hmin hmax
      push Not
      constructor
      · have : ((v.minRange : ℚ) : ℝ) ≤ ((Single.sphericalDepth sqrtF p : ℚ) : ℝ) := by linarith [a.1]
        exact_mod_cast this
      · have : ((Single.sphericalDepth sqrtF p : ℚ) : ℝ) ≤ ((v.maxRange : ℚ) : ℝ) := by linarith [a.2]
        exact_mod_cast this
    unfold Single.LidarView.computeUpdateAll
    dsimp only
    rw [if_neg hcond, g1]
    exact c1
  rw [g2] at c3 c4 c5
  refine ⟨p, lo, hi, Single.sphericalDepth sqrtF p, if Single.kEpsilon < |u| then u else 0, s, he, g3, C94_range sqrtF hs p, hd, ?_, c5, ?_, fun hnone => ?_⟩
  · unfold Single.LidarView.cellChangeAll
    rw [hup]; rfl
  · have hu : |((if Single.kEpsilon < |u| then u else 0 : ℚ) : ℝ) - u| ≤ Single.kEpsilon := by
      split
      · rw [sub_self, abs_zero]; exact_mod_cast hk.le
      · rename_i hn
        push Not at hn
        rw [Rat.cast_zero, zero_sub, abs_neg]
        exact_mod_cast hn
    have e8 := abs_le.1 c6
    have e10 := abs_le.1 hu
    rw [abs_le]
    constructor <;> linarith [e8.1, e8.2, e10.1, e10.2]
  · rw [le_antisymm (c3 fun i hi m hm => by rw [hnone i hi] at hm; cases hm) (c4 fun i hi m hm => by rw [hnone i hi] at hm; cases hm)]
    simp

/-- A cell that is not within the lidar's range is not changed, wherever it is. -/
theorem C100_outside (logF sqrtF : ℚ → ℚ) (hs : IsSqrtSingle sqrtF) (negativeZero : Fin 3 → Bool) (v : Single.LidarView) (hq : |normSq v.pose.q - 1| ≤ 1 / 100) (w : ℚ)
    (hw : 0 < w) (index : Index 3) (h : ∀ k, |index k| < 2 ^ 22) (M N : ℚ) (hM : ∀ k, |((index k : ℚ) + 1 / 2) * w| ≤ M) (hN : ∀ k, |v.pose.t k| ≤ N)
    (hout : exactRange v w index < v.minRange - rangeError (positionError M N) (exactRange v w index) ∨
      v.maxRange + rangeError (positionError M N) (exactRange v w index) < exactRange v w index) :
    v.cellChangeAll logF sqrtF negativeZero w index = some 0 := by
  have a := abs_le.1 (depth_close hs (center_close hq hw index h hM hN))
  unfold Single.LidarView.cellChangeAll Single.LidarView.computeUpdateAll
  dsimp only
  rw [if_pos]
  · simp
  · unfold exactRange at hout
    rcases hout with h1 | h1
    · left
      have : ((Single.sphericalDepth sqrtF (v.cellInSensor w index) : ℚ) : ℝ) < ((v.minRange : ℚ) : ℝ) := by linarith [a.2]
      exact_mod_cast this
    · right
      have : ((v.maxRange : ℚ) : ℝ) < ((Single.sphericalDepth sqrtF (v.cellInSensor w index) : ℚ) : ℝ) := by linarith [a.1]
      exact_mod_cast this

namespace SingleLidarNeighborsCell

/-! ## Whole scans -/

theorem scans_some {logF sqrtF : ℚ → ℚ} (hl : IsLogSingle logF) (hs : IsSqrtSingle sqrtF) (hsf : ∀ x, IsFloat (sqrtF x)) {f : Single.Scan} {w M N : ℚ} (hw : 0 < w)
    (hf : UsableScanAll f w M N) {j : Index 3} (hj : SingleLidarClearing.InBox f j) : ∃ u, f.view.computeUpdateAll logF sqrtF (f.negativeZero j) (f.view.cellInSensor w j) = some u := by
  have he := center_close hf.unit hw j (hf.small j hj) (hf.cell j hj) hf.position
  rcases hf.axis j hj with ha | ho
  · have hne : f.view.cellInSensor w j 1 ≠ 0 ∨ f.view.cellInSensor w j 0 ≠ 0 := by
      rcases ha with h | h
      · right
        intro h0
        have := he 0
        rw [h0, zero_sub, abs_neg] at this
        linarith
      · left
        intro h0
        have := he 1
        rw [h0, zero_sub, abs_neg] at this
        linarith
    obtain ⟨i, hi⟩ := pixel_isSome hs hf.grid (f.view.cellInSensor w j) (f.negativeZero j) hne
    unfold Single.sphericalToNearestIndex at hi
    obtain ⟨c, hc, -⟩ := Option.map_eq_some_iff.1 hi
    unfold Single.LidarView.computeUpdateAll
    dsimp only
    split
    · exact ⟨0, rfl⟩
    · rw [hc]
      obtain ⟨u, -, -, h1, -⟩ := C96_ray logF hl f.view.ray hf.scaled f.view.grid f.view.image hf.image c (Single.sphericalDepth sqrtF (f.view.cellInSensor w j)) (hsf _)
      exact ⟨u, h1⟩
  · have h1 := C100_outside logF sqrtF hs (f.negativeZero j) f.view hf.unit w hw j (hf.small j hj) M N (hf.cell j hj) hf.position ho
    unfold Single.LidarView.cellChangeAll at h1
    obtain ⟨u, h2, -⟩ := Option.map_eq_some_iff.1 h1
    exact ⟨u, h2⟩

/-- One cell. -/
theorem scans_cell {logF sqrtF : ℚ → ℚ} (hl : IsLogSingle logF) (hs : IsSqrtSingle sqrtF) (hsf : ∀ x, IsFloat (sqrtF x)) {f : Single.Scan} {m : HashedBlocks} {M N : ℚ}
    (hw : 0 < m.config.minCellWidth) (hf : UsableScanAll f m.config.minCellWidth M N) (hm : m.Wf) {i : Index 3} (hi : SingleLidarClearing.InBox f i) (j : Index 3) :
    ∃ m' u, f.updateCellAll logF sqrtF m i = some m' ∧ m'.Wf ∧ m'.config = m.config ∧
      f.view.cellChangeAll logF sqrtF (f.negativeZero i) m.config.minCellWidth i = some u ∧
      m'.getCellValue j = if j = i ∧ u ≠ 0 then clamp m.config.minLogOdds m.config.maxLogOdds (fl (m.getCellValue j + u)) else m.getCellValue j := by
  obtain ⟨x, hx⟩ := scans_some hl hs hsf hw hf hi
  unfold Single.Scan.updateCellAll Single.LidarView.cellChangeAll
  rw [hx]
  simp only [Option.map_some, Option.some.injEq]
  by_cases hg : Single.kEpsilon < |x|
  · have hx0 : x ≠ 0 := by
      rintro rfl
      rw [abs_zero] at hg
      exact absurd hg (not_lt.2 SingleCamera.kEpsilon_pos.le)
    obtain ⟨h1, h2, -, h4⟩ := runRounded_value m hm (.add i x) j
    rw [if_pos hg, if_pos hg]
    refine ⟨_, x, rfl, h1, h2, rfl, ?_⟩
    rw [show (Rounded.hashedBlocksAdd fl m i x).getCellValue j = _ from h4]
    dsimp only
    by_cases hj : j = i
    · rw [if_pos hj, if_pos ⟨hj, hx0⟩]
    · rw [if_neg hj, if_neg (fun h => hj h.1)]
  · rw [if_neg hg, if_neg hg]
    exact ⟨m, 0, rfl, hm, rfl, rfl, by rw [if_neg (fun h => h.2 rfl)]⟩

theorem scans_cells {logF sqrtF : ℚ → ℚ} (hl : IsLogSingle logF) (hs : IsSqrtSingle sqrtF) (hsf : ∀ x, IsFloat (sqrtF x)) {f : Single.Scan} {w M N : ℚ} (hw : 0 < w)
    (hf : UsableScanAll f w M N) {j : Index 3} (hj : SingleLidarClearing.InBox f j) (l : List (Index 3)) (hl' : l.Nodup) (hbox : ∀ i ∈ l, SingleLidarClearing.InBox f i) :
    ∀ m : HashedBlocks, m.Wf → m.config.minCellWidth = w →
    ∃ m' u, l.foldlM (f.updateCellAll logF sqrtF) m = some m' ∧ m'.Wf ∧ m'.config = m.config ∧ f.view.cellChangeAll logF sqrtF (f.negativeZero j) w j = some u ∧
      m'.getCellValue j = if j ∈ l ∧ u ≠ 0 then clamp m.config.minLogOdds m.config.maxLogOdds (fl (m.getCellValue j + u)) else m.getCellValue j := by
  induction l with
  | nil =>
    rintro m hm rfl
    obtain ⟨-, u, -, -, -, h, -⟩ := scans_cell hl hs hsf hw hf hm hj j
    exact ⟨m, u, rfl, hm, rfl, h, by simp⟩
  | cons i l ih =>
    rintro m hm rfl
    obtain ⟨hi, hn⟩ := List.nodup_cons.1 hl'
    obtain ⟨m1, u1, h1, w1, c1, x1, v1⟩ := scans_cell hl hs hsf hw hf hm (hbox i (List.mem_cons_self ..)) j
    obtain ⟨m2, u2, h2, w2, c2, x2, v2⟩ := ih hn (fun i hi => hbox i (List.mem_cons_of_mem _ hi)) m1 w1 (by rw [c1])
    refine ⟨m2, u2, ?_, w2, c2.trans c1, x2, ?_⟩
    · rw [List.foldlM_cons, h1]; exact h2
    · rw [v2, c1]
      by_cases hj : j = i
      · subst hj
        rw [x1] at x2
        obtain rfl := Option.some.inj x2
        rw [if_neg (fun h => hi h.1), v1]
        simp
      · rw [if_neg (fun h => hj h.1)] at v1
        rw [v1]
        simp [hj]

theorem scans_others {logF sqrtF : ℚ → ℚ} (hl : IsLogSingle logF) (hs : IsSqrtSingle sqrtF) (hsf : ∀ x, IsFloat (sqrtF x)) {f : Single.Scan} {w M N : ℚ} (hw : 0 < w)
    (hf : UsableScanAll f w M N) (j : Index 3) (l : List (Index 3)) (hbox : ∀ i ∈ l, SingleLidarClearing.InBox f i) (hj : j ∉ l) :
    ∀ m : HashedBlocks, m.Wf → m.config.minCellWidth = w → ∃ m', l.foldlM (f.updateCellAll logF sqrtF) m = some m' ∧ m'.getCellValue j = m.getCellValue j := by
  induction l with
  | nil => exact fun m _ _ => ⟨m, rfl, rfl⟩
  | cons i l ih =>
    rintro m hm rfl
    rw [List.mem_cons, not_or] at hj
    obtain ⟨m1, u1, h1, w1, c1, -, v1⟩ := scans_cell hl hs hsf hw hf hm (hbox i (List.mem_cons_self ..)) j
    obtain ⟨m2, h2, v2⟩ := ih (fun i hi => hbox i (List.mem_cons_of_mem _ hi)) hj.2 m1 w1 (by rw [c1])
    refine ⟨m2, by rw [List.foldlM_cons, h1]; exact h2, ?_⟩
    rw [v2, v1, if_neg (fun h => hj.1 h.1)]

theorem scans_map {logF sqrtF : ℚ → ℚ} (hl : IsLogSingle logF) (hs : IsSqrtSingle sqrtF) (hsf : ∀ x, IsFloat (sqrtF x)) {f : Single.Scan} {m : HashedBlocks} {M N : ℚ}
    (hw : 0 < m.config.minCellWidth) (hf : UsableScanAll f m.config.minCellWidth M N) (hm : m.Wf) {j : Index 3} (hj : SingleLidarClearing.InBox f j) :
    ∃ m' u, Single.Scan.updateMapAll logF sqrtF m f = some m' ∧ m'.Wf ∧ m'.config = m.config ∧
      f.view.cellChangeAll logF sqrtF (f.negativeZero j) m.config.minCellWidth j = some u ∧
      m'.getCellValue j = if u ≠ 0 then clamp m.config.minLogOdds m.config.maxLogOdds (fl (m.getCellValue j + u)) else m.getCellValue j := by
  obtain ⟨l, h1, h2, h3⟩ := gridIndices_spec f.minIndex f.maxIndex hf.toUsableScan.box
  obtain ⟨m', u, g1, g2, g3, g4, g5⟩ := scans_cells hl hs hsf hw hf hj l h2 (fun i hi => (h3 i).1 hi) m hm rfl
  refine ⟨m', u, ?_, g2, g3, g4, ?_⟩
  · unfold Single.Scan.updateMapAll
    rw [h1]
    exact g1
  · rw [g5]
    simp [(h3 j).2 hj]

theorem sees_change {logF sqrtF : ℚ → ℚ} (hl : IsLogSingle logF) (hs : IsSqrtSingle sqrtF) (hsf : ∀ x, IsFloat (sqrtF x)) {f : Single.Scan} {w M N : ℚ} (hw : 0 < w)
    (hf : UsableScanAll f w M N) {j : Index 3} {P : ℝ → Prop} (h : SeesAll f w M N j P) :
    ∃ (u : ℚ) (exact : ℝ), f.view.cellChangeAll logF sqrtF (f.negativeZero j) w j = some u ∧ P exact ∧ |(u : ℝ) - exact| ≤ sumError f.view := by
  obtain ⟨q, lo, hi, d, u, e, h1, h2, -, h4, h5, h6, h7, -⟩ := C100_cell_partial logF sqrtF hl hs hsf (f.negativeZero j) h.sign f.view hf.scaled hf.grid hf.unit hf.image w hw j
    (hf.small j h.inBox) M N (hf.cell j h.inBox) hf.position h.offAxis h.near h.far
  exact ⟨u, e, h5, h.pixels q lo hi d e h1 h2 h4 h6, h7⟩

end SingleLidarNeighborsCell

/-- **One scan.** A scan that sees a cell adds one number to its value, with one rounding and within the bounds: the sum of the exact updates by four pixels around its
direction, up to the error bound. -/
theorem C100_change_partial (logF sqrtF : ℚ → ℚ) (hl : IsLogSingle logF) (hs : IsSqrtSingle sqrtF) (hsf : ∀ x, IsFloat (sqrtF x)) (m : HashedBlocks) (hm : m.Wf)
    (hw : 0 < m.config.minCellWidth) (j : Index 3) (M N : ℚ) (f : Single.Scan) (hf : UsableScanAll f m.config.minCellWidth M N) (P : ℝ → Prop)
    (h : SeesAll f m.config.minCellWidth M N j P) :
    ∃ (m' : HashedBlocks) (u : ℚ) (exact : ℝ), Single.Scan.updateMapAll logF sqrtF m f = some m' ∧ P exact ∧ |(u : ℝ) - exact| ≤ sumError f.view ∧
      m'.getCellValue j = if u = 0 then m.getCellValue j else clamp m.config.minLogOdds m.config.maxLogOdds (fl (m.getCellValue j + u)) := by
  obtain ⟨m2, u, g1, g2, g3, g4, g5⟩ := scans_map hl hs hsf hw hf hm h.inBox
  obtain ⟨u', e, c1, c2, c3⟩ := sees_change hl hs hsf hw hf h
  rw [g4] at c1
  obtain rfl := Option.some.inj c1
  exact ⟨m2, u, e, g1, c2, c3, by rw [g5]; simp only [ne_eq, ite_not]⟩

/-- **Clearing.** Every scan that sees a cell with exact sums of at most `-δ` (and the error bound) lowers its value by `δ` less one rounding error, down to the minimum. -/
theorem C100_cleared_partial (logF sqrtF : ℚ → ℚ) (hl : IsLogSingle logF) (hs : IsSqrtSingle sqrtF) (hsf : ∀ x, IsFloat (sqrtF x)) (m : HashedBlocks) (hm : m.Wf)
    (hc : m.config.isValid = true) (B : ℚ) (hlo : |m.config.minLogOdds| ≤ B) (hhi : |m.config.maxLogOdds| ≤ B) (j : Index 3) (hv : |m.getCellValue j| ≤ B) (M N δ : ℚ) (hδ : 0 < δ)
    (hround : (B + δ) / 2 ^ 24 ≤ δ) (scans : List Single.Scan)
    (hf : ∀ f ∈ scans, UsableScanAll f m.config.minCellWidth M N ∧ SeesAll f m.config.minCellWidth M N j fun exact => exact ≤ -(δ + sumError f.view)) :
    ∃ m', scans.foldlM (Single.Scan.updateMapAll logF sqrtF) m = some m' ∧ (scans ≠ [] → m.config.minLogOdds ≤ m'.getCellValue j) ∧
      m'.getCellValue j ≤ max m.config.minLogOdds (m.getCellValue j - scans.length * (δ - (B + δ) / 2 ^ 24)) := by
  simp only [MapBaseConfig.isValid, Bool.and_eq_true, decide_eq_true_eq] at hc
  obtain ⟨m', h1, h2, h3⟩ := lowered (Single.Scan.updateMapAll logF sqrtF) m.config hc.2.le B hlo hhi j δ hδ scans
    (fun f hf' m1 w1 c1 => by
      obtain ⟨uf, sf⟩ := hf f hf'
      rw [← c1] at uf
      obtain ⟨m2, u, g1, g2, g3, g4, g5⟩ := scans_map hl hs hsf (by rw [c1]; exact hc.1) uf w1 sf.inBox
      rw [c1] at uf g4 g5
      obtain ⟨u', e, k1, k2, k3⟩ := sees_change hl hs hsf hc.1 uf sf
      rw [g4] at k1
      obtain rfl := Option.some.inj k1
      have hu : u ≤ -δ := by
        have := abs_le.1 k3
        have h6 : (u : ℝ) ≤ ((-δ : ℚ) : ℝ) := by push_cast; linarith [this.2]
        exact_mod_cast h6
      rw [if_pos (by linarith)] at g5
      exact ⟨m2, u, g1, g2, g3.trans c1, hu, g5⟩) m (m.getCellValue j) hm rfl hv (le_max_right _ _) (by linarith)
  exact ⟨m', h1, fun h => h2 (Or.inl h), h3⟩

/-- **Appearing.** Every scan that sees a cell with exact sums of at least `δ` (and the error bound) raises its value by `δ` less one rounding error, up to the maximum. -/
theorem C100_appears_partial (logF sqrtF : ℚ → ℚ) (hl : IsLogSingle logF) (hs : IsSqrtSingle sqrtF) (hsf : ∀ x, IsFloat (sqrtF x)) (m : HashedBlocks) (hm : m.Wf)
    (hc : m.config.isValid = true) (B : ℚ) (hlo : |m.config.minLogOdds| ≤ B) (hhi : |m.config.maxLogOdds| ≤ B) (j : Index 3) (hv : |m.getCellValue j| ≤ B) (M N δ : ℚ) (hδ : 0 < δ)
    (hround : (B + δ) / 2 ^ 24 ≤ δ) (scans : List Single.Scan)
    (hf : ∀ f ∈ scans, UsableScanAll f m.config.minCellWidth M N ∧ SeesAll f m.config.minCellWidth M N j fun exact => δ + sumError f.view ≤ exact) :
    ∃ m', scans.foldlM (Single.Scan.updateMapAll logF sqrtF) m = some m' ∧ (scans ≠ [] → m'.getCellValue j ≤ m.config.maxLogOdds) ∧
      min m.config.maxLogOdds (m.getCellValue j + scans.length * (δ - (B + δ) / 2 ^ 24)) ≤ m'.getCellValue j := by
  simp only [MapBaseConfig.isValid, Bool.and_eq_true, decide_eq_true_eq] at hc
  obtain ⟨m', h1, h2, h3⟩ := raised (Single.Scan.updateMapAll logF sqrtF) m.config hc.2.le B hlo hhi j δ hδ scans
    (fun f hf' m1 w1 c1 => by
      obtain ⟨uf, sf⟩ := hf f hf'
      rw [← c1] at uf
      obtain ⟨m2, u, g1, g2, g3, g4, g5⟩ := scans_map hl hs hsf (by rw [c1]; exact hc.1) uf w1 sf.inBox
      rw [c1] at uf g4 g5
      obtain ⟨u', e, k1, k2, k3⟩ := sees_change hl hs hsf hc.1 uf sf
      rw [g4] at k1
      obtain rfl := Option.some.inj k1
      have hu : δ ≤ u := by
        have := abs_le.1 k3
        have h6 : (δ : ℝ) ≤ (u : ℝ) := by linarith [this.1]
        exact_mod_cast h6
      rw [if_pos (by linarith)] at g5
      exact ⟨m2, u, g1, g2, g3.trans c1, hu, g5⟩) m (m.getCellValue j) hm rfl hv (min_le_right _ _) (by linarith)
  exact ⟨m', h1, fun h => h2 (Or.inl h), h3⟩

/-- **Unseen cells** keep their values exactly: cells that are not in the box, not within the range of the lidar, or with all pixels around their
direction outside the image. -/
theorem C100_unseen (logF sqrtF : ℚ → ℚ) (hl : IsLogSingle logF) (hs : IsSqrtSingle sqrtF) (hsf : ∀ x, IsFloat (sqrtF x)) (m : HashedBlocks) (hm : m.Wf)
    (hw : 0 < m.config.minCellWidth) (f : Single.Scan) (M N : ℚ) (hf : UsableScanAll f m.config.minCellWidth M N) (j : Index 3)
    (h : ¬SingleLidarClearing.InBox f j ∨ OutOfRange f m.config.minCellWidth M N j ∨
      (OffAxis f m.config.minCellWidth M N j ∧ f.negativeZero j 0 = false ∧
        f.view.minRange + rangeError (positionError M N) (exactRange f.view m.config.minCellWidth j) ≤ exactRange f.view m.config.minCellWidth j ∧
        exactRange f.view m.config.minCellWidth j ≤ f.view.maxRange - rangeError (positionError M N) (exactRange f.view m.config.minCellWidth j) ∧
        ∀ (q : Point 3) (lo hi : Index 2), (∀ k, |q k - exactCenter f.view m.config.minCellWidth j k| ≤ positionError M N) → SurroundsDirection f.view.grid lo hi q →
          ∀ i ∈ corners lo hi, f.view.image.at i = none)) :
    ∃ m', Single.Scan.updateMapAll logF sqrtF m f = some m' ∧ m'.getCellValue j = m.getCellValue j := by
  by_cases hj : SingleLidarClearing.InBox f j
  · obtain ⟨m', u, h1, -, -, h4, h5⟩ := scans_map hl hs hsf hw hf hm hj
    have hz : f.view.cellChangeAll logF sqrtF (f.negativeZero j) m.config.minCellWidth j = some 0 := by
      rcases h with h | h | ⟨a1, a2, a3, a4, a5⟩
      · exact absurd hj h
      · exact C100_outside logF sqrtF hs (f.negativeZero j) f.view hf.unit _ hw j (hf.small j hj) M N (hf.cell j hj) hf.position h
      · obtain ⟨q, lo, hi, d, u', e, b1, b2, -, -, b5, -, -, b8⟩ := C100_cell_partial logF sqrtF hl hs hsf (f.negativeZero j) a2 f.view hf.scaled hf.grid hf.unit hf.image _ hw j
          (hf.small j hj) M N (hf.cell j hj) hf.position a1 a3 a4
        rw [b5, b8 (a5 q lo hi b1 b2)]
    rw [hz] at h4
    obtain rfl := Option.some.inj h4
    exact ⟨m', h1, by rw [h5, if_neg (by simp)]⟩
  · obtain ⟨l, h1, h2, h3⟩ := gridIndices_spec f.minIndex f.maxIndex hf.toUsableScan.box
    obtain ⟨m', g1, g2⟩ := scans_others hl hs hsf hw hf j l (fun i hi => (h3 i).1 hi) (fun hi => hj ((h3 j).1 hi)) m hm rfl
    exact ⟨m', by unfold Single.Scan.updateMapAll; rw [h1]; exact g1, g2⟩

/-- **In front of the surface.** If all four pixels are in the image and measured at least three standard deviations (and the rounding error) more than the cell's distance, the exact
sum is four times the update of free space. -/
theorem C100_in_front (f : Single.Scan) (w M N : ℚ) (hf : UsableScan f w M N) (j : Index 3) (distance : ℚ) (lo hi : Index 2)
    (hd : |(distance : ℝ) - exactRange f.view w j| ≤ rangeError (positionError M N) (exactRange f.view w j))
    (h : ∀ i ∈ corners lo hi, ∃ measured, f.view.image.at i = some measured ∧
      exactRange f.view w j + rangeError (positionError M N) (exactRange f.view w j) ≤ measured - 3 * f.view.ray.rangeSigma) :
    Wavemap.sumUpdates ((corners lo hi).map (exactRay f.view.ray f.view.image distance)) =
      some (4 * Real.log ((1 - f.view.ray.scalingFree) / (1 + f.view.ray.scalingFree))) := by
  refine C99_in_front f.view.ray hf.scaled f.view.image distance lo hi fun i hi' => ?_
  obtain ⟨m, h1, h2⟩ := h i hi'
  refine ⟨m, h1, ?_⟩
  have a := abs_le.1 hd
  have : (distance : ℝ) ≤ ((m - 3 * f.view.ray.rangeSigma : ℚ) : ℝ) := by push_cast; linarith [a.2]
  exact_mod_cast this

/-- **Behind the surface.** If all four pixels are in the image and measured between one and three standard deviations less than the cell's distance, by more than the rounding error,
the exact sum is at least four times this positive number. -/
theorem C100_behind (f : Single.Scan) (w M N : ℚ) (hf : UsableScan f w M N) (j : Index 3) (distance : ℚ) (lo hi : Index 2)
    (hd : |(distance : ℝ) - exactRange f.view w j| ≤ rangeError (positionError M N) (exactRange f.view w j))
    (h : ∀ i ∈ corners lo hi, ∃ measured, f.view.image.at i = some measured ∧
      measured + f.view.ray.rangeSigma ≤ exactRange f.view w j - rangeError (positionError M N) (exactRange f.view w j) ∧
      exactRange f.view w j + rangeError (positionError M N) (exactRange f.view w j) ≤ measured + 3 * f.view.ray.rangeSigma) :
    ∃ u, Wavemap.sumUpdates ((corners lo hi).map (exactRay f.view.ray f.view.image distance)) = some u ∧
      0 < Real.log ((2 + f.view.ray.scalingOccupied) / (2 - f.view.ray.scalingOccupied)) ∧ 4 * Real.log ((2 + f.view.ray.scalingOccupied) / (2 - f.view.ray.scalingOccupied)) ≤ u := by
  have one : ∀ i ∈ corners lo hi, ∃ u, exactRay f.view.ray f.view.image distance i = some u ∧
      0 < Real.log ((2 + f.view.ray.scalingOccupied) / (2 - f.view.ray.scalingOccupied)) ∧ Real.log ((2 + f.view.ray.scalingOccupied) / (2 - f.view.ray.scalingOccupied)) ≤ u := by
    intro i hi'
    obtain ⟨m, h1, h2, h3⟩ := h i hi'
    obtain ⟨u, k1, k2, k3⟩ := C98_behind f w M N hf j distance m hd h2 h3
    refine ⟨u, ?_, k2, k3⟩
    unfold exactRay
    rw [h1]
    exact k1
  obtain ⟨a, a1, a2, a3⟩ := one (lo 0, lo 1) (by simp [corners])
  obtain ⟨b, b1, -, b3⟩ := one (hi 0, lo 1) (by simp [corners])
  obtain ⟨c, c1, -, c3⟩ := one (lo 0, hi 1) (by simp [corners])
  obtain ⟨d, d1, -, d3⟩ := one (hi 0, hi 1) (by simp [corners])
  unfold corners
  simp only [List.map_cons, List.map_nil, a1, b1, c1, d1]
  refine ⟨_, rfl, a2, ?_⟩
  linarith

/-! ## Examples -/

namespace SingleLidarNeighborsCell

theorem between_in {g : Single.Grid} {k : Fin 2} {lo hi n : Int} {θ : ℝ} (hs : (0 : ℝ) < g.scale k) (hs' : (g.scale k : ℝ) ≤ 1 / 50) (h : Between g k lo hi θ) (hθ : |θ| ≤ 1 / 10)
    (ho : (g.offset k : ℝ) ≤ -(2 / 5)) (hn : 1 / 5 - (g.offset k : ℝ) ≤ n * g.scale k) : 0 ≤ lo ∧ lo < n ∧ 0 ≤ hi ∧ hi < n := by
  obtain ⟨h1, h2, h3, h4⟩ := h
  push_cast at h3 h4
  have b := abs_le.1 hθ
  have hhi : 1 ≤ hi := by
    by_contra hlt
    push Not at hlt
    have : (hi : ℝ) ≤ 0 := by exact_mod_cast (by omega : hi ≤ 0)
    have := mul_le_mul_of_nonneg_right this hs.le
    linarith
  have hlo : lo < n - 1 := by
    by_contra hge
    push Not at hge
    have : ((n : ℝ) - 1) ≤ lo := by exact_mod_cast hge
    have := mul_le_mul_of_nonneg_right this hs.le
    linarith
  omega

theorem clearScan_usableAll : UsableScanAll clearScan (1 / 8) 5 0 where
  toUsableScan := clearScan_usable
  image := fun i m h => by
    have h5 : clearScan.view.image.at i = some 5 ∨ clearScan.view.image.at i = none := by
      unfold Image.at
      split
      · left; rfl
      · right; rfl
    rcases h5 with h5 | h5
    · rw [h5] at h
      obtain rfl := Option.some.inj h
      exact ⟨5, 0, by norm_num, by norm_num⟩
    · rw [h5] at h; cases h

theorem clearScan_seesAll : SeesAll clearScan (1 / 8) 5 0 ![31, 2, -1] fun exact => exact ≤ -((3 / 2 : ℚ) + sumError clearScan.view) := by
  have e0 : exactCenter clearScan.view (1 / 8) ![31, 2, -1] 0 = 63 / 16 := by rw [clearScan_cell]; norm_num
  have e1 : exactCenter clearScan.view (1 / 8) ![31, 2, -1] 1 = 5 / 16 := by rw [clearScan_cell]; norm_num
  have e2 : exactCenter clearScan.view (1 / 8) ![31, 2, -1] 2 = -1 / 16 := by rw [clearScan_cell, show (![31, 2, -1] : Index 3) 2 = -1 from rfl]; norm_num
  have hp : positionError 5 0 = 365 / 2 ^ 24 := by norm_num [positionError]
  have hin : SingleLidarClearing.InBox clearScan ![31, 2, -1] := by unfold SingleLidarClearing.InBox; decide
  obtain ⟨r1, r2⟩ := range_between (v := clearScan.view) (w := 1 / 8) (index := ![31, 2, -1]) (lo := 3) (hi := 4) (by norm_num) (by norm_num)
    (by rw [e0, e1, e2]; norm_num) (by rw [e0, e1, e2]; norm_num)
  push_cast at r1 r2
  have hr : rangeError (positionError 5 0) (exactRange clearScan.view (1 / 8) ![31, 2, -1]) ≤ 1 / 10000 := by
    rw [hp]
    unfold rangeError
    push_cast
    norm_num
    linarith
  have hmin : ((clearScan.view.minRange : ℚ) : ℝ) = 1 / 2 := by norm_num [clearScan, exampleLidar]
  have hmax : ((clearScan.view.maxRange : ℚ) : ℝ) = 20 := by norm_num [clearScan, exampleLidar]
  have hsig : ((clearScan.view.ray.rangeSigma : ℚ) : ℝ) = 1 / 8 := by norm_num [clearScan, exampleLidar]
  refine ⟨hin, ?_, rfl, by rw [hmin]; linarith, by rw [hmax]; linarith, ?_⟩
  · left
    rw [e0, hp, abs_of_pos (by norm_num)]
    norm_num
  · rintro q lo hi d exact hq ⟨el, az, t1, t2, t3, t4⟩ hd hsum
    have q0 := hq 0
    have q1 := hq 1
    have q2 := hq 2
    rw [e0, hp] at q0
    rw [e1, hp] at q1
    rw [e2, hp] at q2
    have b0 := abs_le.1 q0
    have b1 := abs_le.1 q1
    have b2 := abs_le.1 q2
    have x0 : (3 : ℝ) ≤ q 0 := by
      have : (3 : ℚ) ≤ q 0 := by norm_num at b0; linarith [b0.1]
      exact_mod_cast this
    have x1 : |(q 1 : ℝ)| ≤ 3 / 10 + 1 / 50 := by
      have : |q 1| ≤ 3 / 10 + 1 / 50 := by rw [abs_le]; norm_num at b1 ⊢; constructor <;> linarith [b1.1, b1.2]
      have := (Rat.cast_le (K := ℝ)).2 this
      push_cast at this
      exact this
    have x2 : |(q 2 : ℝ)| ≤ 1 / 10 := by
      have : |q 2| ≤ 1 / 10 := by rw [abs_le]; norm_num at b2 ⊢; constructor <;> linarith [b2.1, b2.2]
      have := (Rat.cast_le (K := ℝ)).2 this
      push_cast at this
      exact this
    have x0' : (39 / 10 : ℝ) ≤ q 0 := by
      have : (39 / 10 : ℚ) ≤ q 0 := by norm_num at b0; linarith [b0.1]
      have := (Rat.cast_le (K := ℝ)).2 this
      push_cast at this
      exact this
    have hpn : (3 : ℝ) ≤ Wavemap.planarNorm fun k => q k := by
      unfold Wavemap.planarNorm
      refine Real.le_sqrt_of_sq_le ?_
      dsimp only
      nlinarith [mul_self_nonneg (q 1 : ℝ)]
    have hel : |el| ≤ 1 / 10 := by
      rw [t1.front (by linarith)]
      refine arctan_small ?_
      rw [abs_div, abs_of_pos (show (0 : ℝ) < Wavemap.planarNorm fun k => (q k : ℝ) by linarith), div_le_iff₀ (by linarith)]
      linarith
    have haz : |az| ≤ 1 / 10 := by
      rw [t3.front (by linarith)]
      refine arctan_small ?_
      rw [abs_div, abs_of_pos (show (0 : ℝ) < (q 0 : ℝ) by linarith), div_le_iff₀ (by linarith)]
      linarith
    have s0 : (1 / 100 : ℚ) ≤ clearScan.view.grid.scale 0 ∧ clearScan.view.grid.scale 0 ≤ 1 / 50 := by decide +kernel
    have s1 : (1 / 200 : ℚ) ≤ clearScan.view.grid.scale 1 ∧ clearScan.view.grid.scale 1 ≤ 1 / 50 := by decide +kernel
    have s0R := And.intro ((Rat.cast_le (K := ℝ)).2 s0.1) ((Rat.cast_le (K := ℝ)).2 s0.2)
    have s1R := And.intro ((Rat.cast_le (K := ℝ)).2 s1.1) ((Rat.cast_le (K := ℝ)).2 s1.2)
    push_cast at s0R s1R
    have o0 : ((clearScan.view.grid.offset 0 : ℚ) : ℝ) = -(2 / 5) := by norm_num [clearScan, exampleLidar, Single.Grid.lidar]
    have o1 : ((clearScan.view.grid.offset 1 : ℚ) : ℝ) = -3 := by norm_num [clearScan, exampleLidar, Single.Grid.lidar]
    have i1 := between_in (n := 64) (by linarith [s0R.1]) s0R.2 t2 hel (by rw [o0]) (by rw [o0]; push_cast; linarith [s0R.1])
    have i2 := between_in (n := 1024) (by linarith [s1R.1]) s1R.2 t4 haz (by rw [o1]; norm_num) (by rw [o1]; push_cast; linarith [s1R.1])
    have key : ∀ i : Idx2, 0 ≤ i.1 → i.1 < 64 → 0 ≤ i.2 → i.2 < 1024 → clearScan.view.image.at i = some 5 := by
      intro i k1 k2 k3 k4
      unfold Image.at Image.inBounds
      rw [if_pos]
      · rfl
      · simp only [clearScan, exampleLidar, Bool.and_eq_true, decide_eq_true_eq]
        exact ⟨⟨⟨k1, k3⟩, decide_eq_true k2⟩, decide_eq_true k4⟩
    rw [C100_in_front clearScan (1 / 8) 5 0 clearScan_usable ![31, 2, -1] d lo hi hd (fun i hi' => by
      refine ⟨5, ?_, by rw [hsig]; push_cast; linarith⟩
      simp only [corners, List.mem_cons, List.not_mem_nil, or_false] at hi'
      rcases hi' with rfl | rfl | rfl | rfl <;> exact key _ (by dsimp only; omega) (by dsimp only; omega) (by dsimp only; omega) (by dsimp only; omega))] at hsum
    obtain rfl := Option.some.inj hsum
    have hlog := Real.log_le_sub_one_of_pos (show (0 : ℝ) < 3 / 5 by norm_num)
    have el : (1 - ((clearScan.view.ray.scalingFree : ℚ) : ℝ)) / (1 + (clearScan.view.ray.scalingFree : ℚ)) = 3 / 5 := by norm_num [clearScan, exampleLidar]
    rw [el]
    have hk : Single.kEpsilon ≤ 1 / 1000 := by decide +kernel
    have hkR := (Rat.cast_le (K := ℝ)).2 hk
    have hce : sumError clearScan.view ≤ 1 / 50 := by
      unfold sumError
      norm_num [clearScan, exampleLidar] at hkR ⊢
      linarith
    push_cast
    linarith

theorem wallScan_usableAll : UsableScanAll wallScan (1 / 8) 6 0 where
  toUsableScan := wallScan_usable
  image := fun i m h => by
    have h5 : wallScan.view.image.at i = some 5 ∨ wallScan.view.image.at i = none := by
      unfold Image.at
      split
      · left; rfl
      · right; rfl
    rcases h5 with h5 | h5
    · rw [h5] at h
      obtain rfl := Option.some.inj h
      exact ⟨5, 0, by norm_num, by norm_num⟩
    · rw [h5] at h; cases h

theorem wallScan_seesAll : SeesAll wallScan (1 / 8) 6 0 ![41, 2, -1] fun exact => (3 / 2 : ℚ) + sumError wallScan.view ≤ exact := by
  have e0 : exactCenter wallScan.view (1 / 8) ![41, 2, -1] 0 = 83 / 16 := by rw [wallScan_cell]; norm_num
  have e1 : exactCenter wallScan.view (1 / 8) ![41, 2, -1] 1 = 5 / 16 := by rw [wallScan_cell]; norm_num
  have e2 : exactCenter wallScan.view (1 / 8) ![41, 2, -1] 2 = -1 / 16 := by rw [wallScan_cell, show (![41, 2, -1] : Index 3) 2 = -1 from rfl]; norm_num
  have hp : positionError 6 0 = 438 / 2 ^ 24 := by norm_num [positionError]
  have hin : SingleLidarClearing.InBox wallScan ![41, 2, -1] := by unfold SingleLidarClearing.InBox; decide
  obtain ⟨r1, r2⟩ := range_between (v := wallScan.view) (w := 1 / 8) (index := ![41, 2, -1]) (lo := 515 / 100) (hi := 53 / 10) (by norm_num) (by norm_num)
    (by rw [e0, e1, e2]; norm_num) (by rw [e0, e1, e2]; norm_num)
  push_cast at r1 r2
  have hr : rangeError (positionError 6 0) (exactRange wallScan.view (1 / 8) ![41, 2, -1]) ≤ 1 / 10000 := by
    rw [hp]
    unfold rangeError
    push_cast
    norm_num
    linarith
  have hmin : ((wallScan.view.minRange : ℚ) : ℝ) = 1 / 2 := by norm_num [wallScan, exampleLidar]
  have hmax : ((wallScan.view.maxRange : ℚ) : ℝ) = 20 := by norm_num [wallScan, exampleLidar]
  have hsig : ((wallScan.view.ray.rangeSigma : ℚ) : ℝ) = 1 / 8 := by norm_num [wallScan, exampleLidar]
  refine ⟨hin, ?_, rfl, by rw [hmin]; linarith, by rw [hmax]; linarith, ?_⟩
  · left
    rw [e0, hp, abs_of_pos (by norm_num)]
    norm_num
  · rintro q lo hi d exact hq ⟨el, az, t1, t2, t3, t4⟩ hd hsum
    have q0 := hq 0
    have q1 := hq 1
    have q2 := hq 2
    rw [e0, hp] at q0
    rw [e1, hp] at q1
    rw [e2, hp] at q2
    have b0 := abs_le.1 q0
    have b1 := abs_le.1 q1
    have b2 := abs_le.1 q2
    have x0 : (3 : ℝ) ≤ q 0 := by
      have : (3 : ℚ) ≤ q 0 := by norm_num at b0; linarith [b0.1]
      exact_mod_cast this
    have x1 : |(q 1 : ℝ)| ≤ 3 / 10 + 1 / 50 := by
      have : |q 1| ≤ 3 / 10 + 1 / 50 := by rw [abs_le]; norm_num at b1 ⊢; constructor <;> linarith [b1.1, b1.2]
      have := (Rat.cast_le (K := ℝ)).2 this
      push_cast at this
      exact this
    have x2 : |(q 2 : ℝ)| ≤ 1 / 10 := by
      have : |q 2| ≤ 1 / 10 := by rw [abs_le]; norm_num at b2 ⊢; constructor <;> linarith [b2.1, b2.2]
      have := (Rat.cast_le (K := ℝ)).2 this
      push_cast at this
      exact this
    have x0' : (39 / 10 : ℝ) ≤ q 0 := by
      have : (39 / 10 : ℚ) ≤ q 0 := by norm_num at b0; linarith [b0.1]
      have := (Rat.cast_le (K := ℝ)).2 this
      push_cast at this
      exact this
    have hpn : (3 : ℝ) ≤ Wavemap.planarNorm fun k => q k := by
      unfold Wavemap.planarNorm
      refine Real.le_sqrt_of_sq_le ?_
      dsimp only
      nlinarith [mul_self_nonneg (q 1 : ℝ)]
    have hel : |el| ≤ 1 / 10 := by
      rw [t1.front (by linarith)]
      refine arctan_small ?_
      rw [abs_div, abs_of_pos (show (0 : ℝ) < Wavemap.planarNorm fun k => (q k : ℝ) by linarith), div_le_iff₀ (by linarith)]
      linarith
    have haz : |az| ≤ 1 / 10 := by
      rw [t3.front (by linarith)]
      refine arctan_small ?_
      rw [abs_div, abs_of_pos (show (0 : ℝ) < (q 0 : ℝ) by linarith), div_le_iff₀ (by linarith)]
      linarith
    have s0 : (1 / 100 : ℚ) ≤ wallScan.view.grid.scale 0 ∧ wallScan.view.grid.scale 0 ≤ 1 / 50 := by decide +kernel
    have s1 : (1 / 200 : ℚ) ≤ wallScan.view.grid.scale 1 ∧ wallScan.view.grid.scale 1 ≤ 1 / 50 := by decide +kernel
    have s0R := And.intro ((Rat.cast_le (K := ℝ)).2 s0.1) ((Rat.cast_le (K := ℝ)).2 s0.2)
    have s1R := And.intro ((Rat.cast_le (K := ℝ)).2 s1.1) ((Rat.cast_le (K := ℝ)).2 s1.2)
    push_cast at s0R s1R
    have o0 : ((wallScan.view.grid.offset 0 : ℚ) : ℝ) = -(2 / 5) := by norm_num [wallScan, exampleLidar, Single.Grid.lidar]
    have o1 : ((wallScan.view.grid.offset 1 : ℚ) : ℝ) = -3 := by norm_num [wallScan, exampleLidar, Single.Grid.lidar]
    have i1 := between_in (n := 64) (by linarith [s0R.1]) s0R.2 t2 hel (by rw [o0]) (by rw [o0]; push_cast; linarith [s0R.1])
    have i2 := between_in (n := 1024) (by linarith [s1R.1]) s1R.2 t4 haz (by rw [o1]; norm_num) (by rw [o1]; push_cast; linarith [s1R.1])
    have key : ∀ i : Idx2, 0 ≤ i.1 → i.1 < 64 → 0 ≤ i.2 → i.2 < 1024 → wallScan.view.image.at i = some 5 := by
      intro i k1 k2 k3 k4
      unfold Image.at Image.inBounds
      rw [if_pos]
      · rfl
      · simp only [wallScan, exampleLidar, Bool.and_eq_true, decide_eq_true_eq]
        exact ⟨⟨⟨k1, k3⟩, decide_eq_true k2⟩, decide_eq_true k4⟩
    obtain ⟨u, hu1, -, hu3⟩ := C100_behind wallScan (1 / 8) 6 0 wallScan_usable ![41, 2, -1] d lo hi hd (fun i hi' => by
      refine ⟨5, ?_, by rw [hsig]; push_cast; linarith, by rw [hsig]; push_cast; linarith⟩
      simp only [corners, List.mem_cons, List.not_mem_nil, or_false] at hi'
      rcases hi' with rfl | rfl | rfl | rfl <;> exact key _ (by dsimp only; omega) (by dsimp only; omega) (by dsimp only; omega) (by dsimp only; omega))
    rw [hu1] at hsum
    obtain rfl := Option.some.inj hsum
    have hlog := Real.one_sub_inv_le_log_of_pos (show (0 : ℝ) < 5 / 3 by norm_num)
    have el : (2 + ((wallScan.view.ray.scalingOccupied : ℚ) : ℝ)) / (2 - (wallScan.view.ray.scalingOccupied : ℚ)) = 5 / 3 := by norm_num [wallScan, exampleLidar]
    rw [el] at hu3
    norm_num at hlog
    have hk : Single.kEpsilon ≤ 1 / 1000 := by decide +kernel
    have hkR := (Rat.cast_le (K := ℝ)).2 hk
    have hce : sumError wallScan.view ≤ 1 / 50 := by
      unfold sumError
      norm_num [wallScan, exampleLidar] at hkR ⊢
      linarith
    push_cast
    linarith

end SingleLidarNeighborsCell

/-- A cell one metre in front of a wall, at the maximum of 4, is below zero after three scans. -/
example : ∃ m', (List.replicate 3 clearScan).foldlM (Single.Scan.updateMapAll exampleLog roundedSqrt) (HashedBlocks.create ⟨1 / 8, -2, 4⟩ 4) = some m' ∧
    m'.getCellValue ![31, 2, -1] < 0 := by
  have hv : (HashedBlocks.create ⟨1 / 8, -2, 4⟩ 4).getCellValue ![31, 2, -1] = 4 := rfl
  obtain ⟨m', h1, -, h3⟩ := C100_cleared_partial exampleLog roundedSqrt exampleLog_ok roundedSqrt_ok.1 roundedSqrt_ok.2 (HashedBlocks.create ⟨1 / 8, -2, 4⟩ 4) List.nodup_nil
    (by decide +kernel) 4 (by norm_num [HashedBlocks.create]) (by norm_num [HashedBlocks.create]) ![31, 2, -1] (by rw [hv]; norm_num) 5 0 (3 / 2) (by norm_num) (by norm_num)
    (List.replicate 3 clearScan) (fun f hf => by
      obtain rfl := List.eq_of_mem_replicate hf
      exact ⟨clearScan_usableAll, clearScan_seesAll⟩)
  refine ⟨m', h1, h3.trans_lt ?_⟩
  rw [hv]
  norm_num [HashedBlocks.create]

/-- One scan lowers the value by at least one and a half. -/
example : ∃ (m' : HashedBlocks) (u : ℚ) (exact : ℝ), Single.Scan.updateMapAll exampleLog roundedSqrt (HashedBlocks.create ⟨1 / 8, -2, 4⟩ 3) clearScan = some m' ∧
    exact ≤ -((3 / 2 : ℚ) + sumError clearScan.view) ∧ |(u : ℝ) - exact| ≤ sumError clearScan.view ∧
    m'.getCellValue ![31, 2, -1] = if u = 0 then 3 else clamp (-2) 4 (fl (3 + u)) :=
  C100_change_partial exampleLog roundedSqrt exampleLog_ok roundedSqrt_ok.1 roundedSqrt_ok.2 (HashedBlocks.create ⟨1 / 8, -2, 4⟩ 3) List.nodup_nil (by norm_num [HashedBlocks.create])
    ![31, 2, -1] 5 0 clearScan clearScan_usableAll _ clearScan_seesAll

/-- A cell outside the box keeps its value. -/
example : ∃ m', Single.Scan.updateMapAll exampleLog roundedSqrt (HashedBlocks.create ⟨1 / 8, -2, 4⟩ 3) clearScan = some m' ∧ m'.getCellValue ![33, 2, -1] = 3 :=
  C100_unseen exampleLog roundedSqrt exampleLog_ok roundedSqrt_ok.1 roundedSqrt_ok.2 (HashedBlocks.create ⟨1 / 8, -2, 4⟩ 3) List.nodup_nil (by norm_num [HashedBlocks.create])
    clearScan 5 0 clearScan_usableAll ![33, 2, -1] (Or.inl (by unfold SingleLidarClearing.InBox; decide))

/-- A cell behind the surface of the wall, at the minimum of -2, is above two after three scans. -/
example : ∃ m', (List.replicate 3 wallScan).foldlM (Single.Scan.updateMapAll exampleLog roundedSqrt) (HashedBlocks.create ⟨1 / 8, -2, 4⟩ (-2)) = some m' ∧
    2 < m'.getCellValue ![41, 2, -1] := by
  have hv : (HashedBlocks.create ⟨1 / 8, -2, 4⟩ (-2)).getCellValue ![41, 2, -1] = -2 := rfl
  obtain ⟨m', h1, -, h3⟩ := C100_appears_partial exampleLog roundedSqrt exampleLog_ok roundedSqrt_ok.1 roundedSqrt_ok.2 (HashedBlocks.create ⟨1 / 8, -2, 4⟩ (-2)) List.nodup_nil
    (by decide +kernel) 4 (by norm_num [HashedBlocks.create]) (by norm_num [HashedBlocks.create]) ![41, 2, -1] (by rw [hv]; norm_num) 6 0 (3 / 2) (by norm_num) (by norm_num)
    (List.replicate 3 wallScan) (fun f hf => by
      obtain rfl := List.eq_of_mem_replicate hf
      exact ⟨wallScan_usableAll, wallScan_seesAll⟩)
  refine ⟨m', h1, lt_of_lt_of_le ?_ h3⟩
  rw [hv]
  norm_num [HashedBlocks.create]

/-- A cell straight above the lidar has no pixel: the code converts NaN to an index. -/
theorem C100_axis_fails : ∃ (v : Single.LidarView) (w : ℚ) (index : Index 3), v.ray.Scaled ∧ normSq v.pose.q = 1 ∧ 0 < w ∧
    (∀ i, 0 < v.grid.scale i ∧ |v.grid.offset i| ≤ 32 / 10) ∧ (v.minRange : ℝ) < exactRange v w index ∧ exactRange v w index < v.maxRange ∧
    ∀ (logF sqrtF : ℚ → ℚ) (negativeZero : Fin 3 → Bool), IsSqrtSingle sqrtF → v.cellChangeAll logF sqrtF negativeZero w index = none := by
  obtain ⟨o1, o2, o3⟩ := exampleLidar_ok ![-1 / 16, -1 / 16, 0]
  have e : (exampleLidar ![-1 / 16, -1 / 16, 0]).cellInSensor (1 / 8) ![0, 0, 39] = ![0, 0, 79 / 16] := by decide +kernel
  have c : ∀ k, exactCenter (exampleLidar ![-1 / 16, -1 / 16, 0]) (1 / 8) ![0, 0, 39] k = (![0, 0, 79 / 16] : Point 3) k := by decide +kernel
  have c0 := c 0
  have c1 := c 1
  have c2 := c 2
  simp only [Matrix.cons_val_zero, Matrix.cons_val_one, Matrix.cons_val] at c0 c1 c2
  obtain ⟨r1, r2⟩ := range_between (v := exampleLidar ![-1 / 16, -1 / 16, 0]) (w := 1 / 8) (index := ![0, 0, 39]) (lo := 4) (hi := 5) (by norm_num) (by norm_num)
    (by rw [c0, c1, c2]; norm_num) (by rw [c0, c1, c2]; norm_num)
  have m1 : ((exampleLidar ![-1 / 16, -1 / 16, 0]).minRange : ℝ) = 1 / 2 := by norm_num [exampleLidar]
  have m2 : ((exampleLidar ![-1 / 16, -1 / 16, 0]).maxRange : ℝ) = 20 := by norm_num [exampleLidar]
  refine ⟨_, 1 / 8, ![0, 0, 39], o1, o2, by norm_num, o3, by rw [m1]; push_cast at r1; linarith, by rw [m2]; push_cast at r2; linarith, ?_⟩
  intro logF sqrtF nz hs
  unfold Single.LidarView.cellChangeAll Single.LidarView.computeUpdateAll
  rw [e]
  dsimp only
  have hd := C94_range sqrtF hs ![0, 0, 79 / 16]
  have hn : norm3 (fun k => (((![0, 0, 79 / 16] : Point 3) k : ℚ) : ℝ)) = 79 / 16 := by
    unfold norm3
    refine (congrArg Real.sqrt (?_ : _ = (79 / 16 : ℝ) * (79 / 16))).trans (Real.sqrt_mul_self (by norm_num))
    simp
  rw [hn] at hd
  have a := abs_le.1 hd
  rw [if_neg]
  · rw [C94_axis sqrtF (fun k => Single.Signed.with (nz k) ((![0, 0, 79 / 16] : Point 3) k)) rfl rfl]
    rfl
  · push Not
    norm_num at a
    constructor
    · have : (((exampleLidar ![-1 / 16, -1 / 16, 0]).minRange : ℚ) : ℝ) ≤ ((Single.sphericalDepth sqrtF ![0, 0, 79 / 16] : ℚ) : ℝ) := by rw [m1]; linarith [a.1]
      exact_mod_cast this
    · have : ((Single.sphericalDepth sqrtF ![0, 0, 79 / 16] : ℚ) : ℝ) ≤ (((exampleLidar ![-1 / 16, -1 / 16, 0]).maxRange : ℚ) : ℝ) := by rw [m2]; linarith [a.2]
      exact_mod_cast this

end Wavemap
