import Verif.Model.SingleLidarClearing
import Verif.Props.SingleClearing
import Verif.Props.SingleLidarCell
/-!
# C98: a lidar changes the occupancy of what it sees, in single precision
-/
namespace Wavemap
namespace SingleLidarClearing
open SingleCamera SingleMeasurement SinglePoses SingleCell SingleLidar SingleLidarCell

/-! ## Specification -/

/-- The bound on the difference between the change of a cell and the exact update (C95). -/
noncomputable def scanError (v : Single.LidarView) : ℝ := 1 / 2 ^ 12 / (1 - v.ray.scalingFree) + Single.kEpsilon

/-- The index is in the box of the scan. -/
def InBox (f : Single.Scan) (j : Index 3) : Prop := ∀ k, f.minIndex k ≤ j k ∧ j k ≤ f.maxIndex k

/-- The centre of the cell is off the lidar's vertical axis by more than the rounding error. -/
def OffAxis (f : Single.Scan) (w M N : ℚ) (j : Index 3) : Prop :=
  positionError M N < |exactCenter f.view w j 0| ∨ positionError M N < |exactCenter f.view w j 1|

/-- The centre of the cell is not within the lidar's range, by more than the rounding error. -/
def OutOfRange (f : Single.Scan) (w M N : ℚ) (j : Index 3) : Prop :=
  exactRange f.view w j < f.view.minRange - rangeError (positionError M N) (exactRange f.view w j) ∨
    f.view.maxRange + rangeError (positionError M N) (exactRange f.view w j) < exactRange f.view w j

/-- A scan with a valid lidar, weights at most one and a box whose cells are off the lidar's vertical axis or out of range. -/
structure UsableScan (f : Single.Scan) (w M N : ℚ) : Prop where
  scaled : f.view.ray.Scaled
  grid : ∀ i, 0 < f.view.grid.scale i ∧ |f.view.grid.offset i| ≤ 32 / 10
  unit : |normSq f.view.pose.q - 1| ≤ 1 / 100
  position : ∀ k, |f.view.pose.t k| ≤ N
  box : ∀ k, f.minIndex k ≤ f.maxIndex k
  small : ∀ j, InBox f j → ∀ k, |j k| < 2 ^ 22
  cell : ∀ j, InBox f j → ∀ k, |((j k : ℚ) + 1 / 2) * w| ≤ M
  axis : ∀ j, InBox f j → OffAxis f w M N j ∨ OutOfRange f w M N j

/-- The scan sees the cell `j`: it is in the box, off the axis and within range by more than the rounding error, and all pixels next to it are in the image, with exact updates that
satisfy `P` for all distances within the rounding error. -/
structure SeesCell (f : Single.Scan) (w M N : ℚ) (j : Index 3) (P : ℝ → Prop) : Prop where
  inBox : InBox f j
  offAxis : OffAxis f w M N j
  sign : f.negativeZero j 0 = false
  near : f.view.minRange + rangeError (positionError M N) (exactRange f.view w j) ≤ exactRange f.view w j
  far : exactRange f.view w j ≤ f.view.maxRange - rangeError (positionError M N) (exactRange f.view w j)
  pixels : ∀ (q : Point 3) (i : Idx2) (distance : ℚ), (∀ k, |q k - exactCenter f.view w j k| ≤ positionError M N) → NextTo f.view.grid i q →
    |(distance : ℝ) - exactRange f.view w j| ≤ rangeError (positionError M N) (exactRange f.view w j) →
    ∃ measured exact, f.view.image.at i = some measured ∧ f.view.ray.exact.distanceUpdate distance measured = some exact ∧ P exact

/-! ## Proofs -/

/-- Repeated changes of at most `-δ`. -/
theorem lowered {F : Type} (step : HashedBlocks → F → Option HashedBlocks) (cfg : MapBaseConfig) (hlt : cfg.minLogOdds ≤ cfg.maxLogOdds) (B : ℚ) (hlo : |cfg.minLogOdds| ≤ B)
    (hhi : |cfg.maxLogOdds| ≤ B) (j : Index 3) (δ : ℚ) (hδ : 0 < δ) (frames : List F)
    (hf : ∀ f ∈ frames, ∀ m : HashedBlocks, m.Wf → m.config = cfg → ∃ m' u, step m f = some m' ∧ m'.Wf ∧ m'.config = cfg ∧ u ≤ -δ ∧
      m'.getCellValue j = clamp cfg.minLogOdds cfg.maxLogOdds (fl (m.getCellValue j + u))) :
    ∀ (m : HashedBlocks) (a : ℚ), m.Wf → m.config = cfg → |m.getCellValue j| ≤ B → m.getCellValue j ≤ max cfg.minLogOdds a → 0 ≤ δ - (B + δ) / 2 ^ 24 →
      ∃ m', frames.foldlM step m = some m' ∧ (frames ≠ [] ∨ cfg.minLogOdds ≤ m.getCellValue j → cfg.minLogOdds ≤ m'.getCellValue j) ∧
        m'.getCellValue j ≤ max cfg.minLogOdds (a - frames.length * (δ - (B + δ) / 2 ^ 24)) := by
  induction frames with
  | nil =>
    intro m a _ _ _ h4 _
    exact ⟨m, rfl, fun h => by simpa using h, by simpa using h4⟩
  | cons f frames ih =>
    intro m a h1 h2 h3 h4 h0
    obtain ⟨m2, u, g1, g2, g3, hu, g5⟩ := hf f (List.mem_cons_self ..) m h1 h2
    rw [clamp_eq hlt] at g5
    have hfl : fl (m.getCellValue j + u) ≤ m.getCellValue j - (δ - (B + δ) / 2 ^ 24) := by
      have k1 := fl_mono (show m.getCellValue j + u ≤ m.getCellValue j + -δ by linarith)
      have k2 := (abs_le.1 (fl_err (m.getCellValue j + -δ))).2
      have k3 : |m.getCellValue j + -δ| / 2 ^ 24 ≤ (B + δ) / 2 ^ 24 := by
        refine div_le_div_of_nonneg_right ((abs_add_le _ _).trans ?_) (by norm_num)
        rw [abs_neg, abs_of_pos hδ]
        linarith
      linarith
    have hb : |m2.getCellValue j| ≤ B := by
      rw [g5, ← clamp_eq hlt]
      exact clamp_within hlt hlo hhi _
    have hstep : m2.getCellValue j ≤ max cfg.minLogOdds (a - (δ - (B + δ) / 2 ^ 24)) := by
      rw [g5]
      refine max_le (le_max_left _ _) ((min_le_left _ _).trans (hfl.trans ?_))
      rcases le_max_iff.1 h4 with h | h
      · exact le_trans (by linarith) (le_max_left _ _)
      · exact le_trans (by linarith) (le_max_right _ _)
    obtain ⟨m3, k1, k2, k3⟩ := ih (fun f hf' => hf f (List.mem_cons_of_mem _ hf')) m2 (a - (δ - (B + δ) / 2 ^ 24)) g2 g3 hb hstep h0
    refine ⟨m3, ?_, fun _ => k2 (Or.inr ?_), k3.trans (le_of_eq ?_)⟩
    · rw [List.foldlM_cons, g1]; exact k1
    · rw [g5]; exact le_max_left _ _
    · rw [List.length_cons]; push_cast; ring_nf

/-- Repeated changes of at least `δ`. -/
theorem raised {F : Type} (step : HashedBlocks → F → Option HashedBlocks) (cfg : MapBaseConfig) (hlt : cfg.minLogOdds ≤ cfg.maxLogOdds) (B : ℚ) (hlo : |cfg.minLogOdds| ≤ B)
    (hhi : |cfg.maxLogOdds| ≤ B) (j : Index 3) (δ : ℚ) (hδ : 0 < δ) (frames : List F)
    (hf : ∀ f ∈ frames, ∀ m : HashedBlocks, m.Wf → m.config = cfg → ∃ m' u, step m f = some m' ∧ m'.Wf ∧ m'.config = cfg ∧ δ ≤ u ∧
      m'.getCellValue j = clamp cfg.minLogOdds cfg.maxLogOdds (fl (m.getCellValue j + u))) :
    ∀ (m : HashedBlocks) (a : ℚ), m.Wf → m.config = cfg → |m.getCellValue j| ≤ B → min cfg.maxLogOdds a ≤ m.getCellValue j → 0 ≤ δ - (B + δ) / 2 ^ 24 →
      ∃ m', frames.foldlM step m = some m' ∧ (frames ≠ [] ∨ m.getCellValue j ≤ cfg.maxLogOdds → m'.getCellValue j ≤ cfg.maxLogOdds) ∧
        min cfg.maxLogOdds (a + frames.length * (δ - (B + δ) / 2 ^ 24)) ≤ m'.getCellValue j := by
  induction frames with
  | nil =>
    intro m a _ _ _ h4 _
    exact ⟨m, rfl, fun h => by simpa using h, by simpa using h4⟩
  | cons f frames ih =>
    intro m a h1 h2 h3 h4 h0
    obtain ⟨m2, u, g1, g2, g3, hu, g5⟩ := hf f (List.mem_cons_self ..) m h1 h2
    rw [clamp_eq hlt] at g5
    have hfl : m.getCellValue j + (δ - (B + δ) / 2 ^ 24) ≤ fl (m.getCellValue j + u) := by
      have k1 := fl_mono (show m.getCellValue j + δ ≤ m.getCellValue j + u by linarith)
      have k2 := (abs_le.1 (fl_err (m.getCellValue j + δ))).1
      have k3 : |m.getCellValue j + δ| / 2 ^ 24 ≤ (B + δ) / 2 ^ 24 := by
        refine div_le_div_of_nonneg_right ((abs_add_le _ _).trans ?_) (by norm_num)
        rw [abs_of_pos hδ]
        linarith
      linarith
    have hb : |m2.getCellValue j| ≤ B := by
      rw [g5, ← clamp_eq hlt]
      exact clamp_within hlt hlo hhi _
    have hstep : min cfg.maxLogOdds (a + (δ - (B + δ) / 2 ^ 24)) ≤ m2.getCellValue j := by
      rw [g5]
      refine le_trans ?_ (le_max_right _ _)
      refine le_min ?_ (min_le_left _ _)
      rcases min_le_iff.1 h4 with h | h
      · exact (min_le_left _ _).trans (by linarith)
      · exact (min_le_right _ _).trans (by linarith)
    obtain ⟨m3, k1, k2, k3⟩ := ih (fun f hf' => hf f (List.mem_cons_of_mem _ hf')) m2 (a + (δ - (B + δ) / 2 ^ 24)) g2 g3 hb hstep h0
    refine ⟨m3, ?_, fun _ => k2 (Or.inr ?_), le_trans (le_of_eq ?_) k3⟩
    · rw [List.foldlM_cons, g1]; exact k1
    · rw [g5]; exact max_le hlt (min_le_right _ _)
    · rw [List.length_cons]; push_cast; ring_nf

theorem atan2_isSome (y x y' x' : Single.Signed) (hy : y.value = y'.value) (hx : x.value = x'.value) (h : (Single.approxAtan2 y x).isSome) :
    (Single.approxAtan2 y' x').isSome := by
  unfold Single.approxAtan2 at *
  rw [← hy, ← hx]
  split at h
  · exact absurd h (by simp)
  · rename_i hn
    rw [if_neg hn]
    rfl

/-- A point off the axis has a pixel, whatever the signs of its zeros. -/
theorem pixel_isSome {sqrtF : ℚ → ℚ} (hs : IsSqrtSingle sqrtF) {g : Single.Grid} (hg : ∀ i, 0 < g.scale i ∧ |g.offset i| ≤ 32 / 10) (p : Point 3) (b : Fin 3 → Bool)
    (hne : p 1 ≠ 0 ∨ p 0 ≠ 0) : ∃ i, Single.sphericalToNearestIndex sqrtF g (fun k => Single.Signed.with (b k) (p k)) = some i := by
  obtain ⟨i, -, -, h, -⟩ := C94_pixel_partial sqrtF hs g hg (fun k => Single.Signed.with false (p k)) (fun k => Signed.with_ok _ _) hne
    (fun h0 => by
      have h0' : p 0 = 0 := h0
      simp [Single.Signed.with, h0'])
  have key : (Single.sphericalToImage sqrtF fun k => Single.Signed.with (b k) (p k)).isSome := by
    unfold Single.sphericalToNearestIndex at h
    unfold Single.sphericalToImage at h ⊢
    cases h1 : Single.approxAtan2 (Single.Signed.with false (p 2)) (Single.Signed.of (Single.planarNorm sqrtF fun k => p k)) with
    | none => simp [Single.Signed.with] at h h1; simp [h1] at h
    | some e =>
      cases h2 : Single.approxAtan2 (Single.Signed.with false (p 1)) (Single.Signed.with false (p 0)) with
      | none => simp [Single.Signed.with] at h h2; simp [h2] at h
      | some a =>
        have s1 := atan2_isSome (Single.Signed.with false (p 2)) (Single.Signed.of (Single.planarNorm sqrtF fun k => p k)) (Single.Signed.with (b 2) (p 2)) (Single.Signed.of (Single.planarNorm sqrtF fun k => p k)) rfl rfl (by rw [h1]; rfl)
        have s2 := atan2_isSome (Single.Signed.with false (p 1)) (Single.Signed.with false (p 0)) (Single.Signed.with (b 1) (p 1)) (Single.Signed.with (b 0) (p 0)) rfl rfl (by rw [h2]; rfl)
        obtain ⟨e', h1'⟩ := Option.isSome_iff_exists.1 s1
        obtain ⟨a', h2'⟩ := Option.isSome_iff_exists.1 s2
        have h1'' : Single.approxAtan2 (Single.Signed.with (b 2) (p 2)) (Single.Signed.of (Single.planarNorm sqrtF fun k => (Single.Signed.with (b k) (p k)).value)) = some e' := h1'
        dsimp only
        rw [h1'', h2']
        rfl
  obtain ⟨c, hc⟩ := Option.isSome_iff_exists.1 key
  exact ⟨g.imageToNearestIndex c, by unfold Single.sphericalToNearestIndex; rw [hc]; rfl⟩

theorem scan_some {logF sqrtF : ℚ → ℚ} (hl : IsLogSingle logF) (hs : IsSqrtSingle sqrtF) (hsf : ∀ x, IsFloat (sqrtF x)) {f : Single.Scan} {w M N : ℚ} (hw : 0 < w)
    (hf : UsableScan f w M N) {j : Index 3} (hj : InBox f j) : ∃ u, f.view.computeUpdate logF sqrtF (f.negativeZero j) (f.view.cellInSensor w j) = some u := by
  have he := center_close hf.unit hw j (hf.small j hj) (hf.cell j hj) hf.position
  rcases hf.axis j hj with ha | ho
  · have hne : f.view.cellInSensor w j 1 ≠ 0 ∨ f.view.cellInSensor w j 0 ≠ 0 := by
      rcases ha with h | h
      · right
        intro h0
        have := he 0
        rw [h0, zero_sub, abs_neg] at this
        linarith
      · left
        intro h0
        have := he 1
        rw [h0, zero_sub, abs_neg] at this
        linarith
    obtain ⟨i, hi⟩ := pixel_isSome hs hf.grid (f.view.cellInSensor w j) (f.negativeZero j) hne
    unfold Single.LidarView.computeUpdate
    dsimp only
    split
    · exact ⟨0, rfl⟩
    · rw [hi]
      dsimp only
      cases f.view.image.at (i 0, i 1) with
      | none => exact ⟨0, rfl⟩
      | some measured =>
        obtain ⟨u, -, h1, -⟩ := C92_ray_error logF hl f.view.ray hf.scaled (Single.sphericalDepth sqrtF (f.view.cellInSensor w j)) measured (hsf _)
        exact ⟨u, h1⟩
  · have h1 := C95_outside logF sqrtF hs (f.negativeZero j) f.view hf.unit w hw j (hf.small j hj) M N (hf.cell j hj) hf.position ho
    unfold Single.LidarView.cellChange at h1
    obtain ⟨u, h2, -⟩ := Option.map_eq_some_iff.1 h1
    exact ⟨u, h2⟩

/-- One cell. -/
theorem scan_cell {logF sqrtF : ℚ → ℚ} (hl : IsLogSingle logF) (hs : IsSqrtSingle sqrtF) (hsf : ∀ x, IsFloat (sqrtF x)) {f : Single.Scan} {m : HashedBlocks} {M N : ℚ}
    (hw : 0 < m.config.minCellWidth) (hf : UsableScan f m.config.minCellWidth M N) (hm : m.Wf) {i : Index 3} (hi : InBox f i) (j : Index 3) :
    ∃ m' u, f.updateCell logF sqrtF m i = some m' ∧ m'.Wf ∧ m'.config = m.config ∧
      f.view.cellChange logF sqrtF (f.negativeZero i) m.config.minCellWidth i = some u ∧
      m'.getCellValue j = if j = i ∧ u ≠ 0 then clamp m.config.minLogOdds m.config.maxLogOdds (fl (m.getCellValue j + u)) else m.getCellValue j := by
  obtain ⟨x, hx⟩ := scan_some hl hs hsf hw hf hi
  unfold Single.Scan.updateCell Single.LidarView.cellChange
  rw [hx]
  simp only [Option.map_some, Option.some.injEq]
  by_cases hg : Single.kEpsilon < |x|
  · have hx0 : x ≠ 0 := by
      rintro rfl
      rw [abs_zero] at hg
      exact absurd hg (not_lt.2 SingleCamera.kEpsilon_pos.le)
    obtain ⟨h1, h2, -, h4⟩ := runRounded_value m hm (.add i x) j
    rw [if_pos hg, if_pos hg]
    refine ⟨_, x, rfl, h1, h2, rfl, ?_⟩
    rw [show (Rounded.hashedBlocksAdd fl m i x).getCellValue j = _ from h4]
    dsimp only
    by_cases hj : j = i
    · rw [if_pos hj, if_pos ⟨hj, hx0⟩]
    · rw [if_neg hj, if_neg (fun h => hj h.1)]
  · rw [if_neg hg, if_neg hg]
    exact ⟨m, 0, rfl, hm, rfl, rfl, by rw [if_neg (fun h => h.2 rfl)]⟩

theorem scan_cells {logF sqrtF : ℚ → ℚ} (hl : IsLogSingle logF) (hs : IsSqrtSingle sqrtF) (hsf : ∀ x, IsFloat (sqrtF x)) {f : Single.Scan} {w M N : ℚ} (hw : 0 < w)
    (hf : UsableScan f w M N) {j : Index 3} (hj : InBox f j) (l : List (Index 3)) (hl' : l.Nodup) (hbox : ∀ i ∈ l, InBox f i) :
    ∀ m : HashedBlocks, m.Wf → m.config.minCellWidth = w →
    ∃ m' u, l.foldlM (f.updateCell logF sqrtF) m = some m' ∧ m'.Wf ∧ m'.config = m.config ∧ f.view.cellChange logF sqrtF (f.negativeZero j) w j = some u ∧
      m'.getCellValue j = if j ∈ l ∧ u ≠ 0 then clamp m.config.minLogOdds m.config.maxLogOdds (fl (m.getCellValue j + u)) else m.getCellValue j := by
  induction l with
  | nil =>
    rintro m hm rfl
    obtain ⟨-, u, -, -, -, h, -⟩ := scan_cell hl hs hsf hw hf hm hj j
    exact ⟨m, u, rfl, hm, rfl, h, by simp⟩
  | cons i l ih =>
    rintro m hm rfl
    obtain ⟨hi, hn⟩ := List.nodup_cons.1 hl'
    obtain ⟨m1, u1, h1, w1, c1, x1, v1⟩ := scan_cell hl hs hsf hw hf hm (hbox i (List.mem_cons_self ..)) j
    obtain ⟨m2, u2, h2, w2, c2, x2, v2⟩ := ih hn (fun i hi => hbox i (List.mem_cons_of_mem _ hi)) m1 w1 (by rw [c1])
    refine ⟨m2, u2, ?_, w2, c2.trans c1, x2, ?_⟩
    · rw [List.foldlM_cons, h1]; exact h2
    · rw [v2, c1]
      by_cases hj : j = i
      · subst hj
        rw [x1] at x2
        obtain rfl := Option.some.inj x2
        rw [if_neg (fun h => hi h.1), v1]
        simp
      · rw [if_neg (fun h => hj h.1)] at v1
        rw [v1]
        simp [hj]

theorem scan_others {logF sqrtF : ℚ → ℚ} (hl : IsLogSingle logF) (hs : IsSqrtSingle sqrtF) (hsf : ∀ x, IsFloat (sqrtF x)) {f : Single.Scan} {w M N : ℚ} (hw : 0 < w)
    (hf : UsableScan f w M N) (j : Index 3) (l : List (Index 3)) (hbox : ∀ i ∈ l, InBox f i) (hj : j ∉ l) :
    ∀ m : HashedBlocks, m.Wf → m.config.minCellWidth = w → ∃ m', l.foldlM (f.updateCell logF sqrtF) m = some m' ∧ m'.getCellValue j = m.getCellValue j := by
  induction l with
  | nil => exact fun m _ _ => ⟨m, rfl, rfl⟩
  | cons i l ih =>
    rintro m hm rfl
    rw [List.mem_cons, not_or] at hj
    obtain ⟨m1, u1, h1, w1, c1, -, v1⟩ := scan_cell hl hs hsf hw hf hm (hbox i (List.mem_cons_self ..)) j
    obtain ⟨m2, h2, v2⟩ := ih (fun i hi => hbox i (List.mem_cons_of_mem _ hi)) hj.2 m1 w1 (by rw [c1])
    refine ⟨m2, by rw [List.foldlM_cons, h1]; exact h2, ?_⟩
    rw [v2, v1, if_neg (fun h => hj.1 h.1)]

theorem scan_map {logF sqrtF : ℚ → ℚ} (hl : IsLogSingle logF) (hs : IsSqrtSingle sqrtF) (hsf : ∀ x, IsFloat (sqrtF x)) {f : Single.Scan} {m : HashedBlocks} {M N : ℚ}
    (hw : 0 < m.config.minCellWidth) (hf : UsableScan f m.config.minCellWidth M N) (hm : m.Wf) {j : Index 3} (hj : InBox f j) :
    ∃ m' u, Single.Scan.updateMap logF sqrtF m f = some m' ∧ m'.Wf ∧ m'.config = m.config ∧
      f.view.cellChange logF sqrtF (f.negativeZero j) m.config.minCellWidth j = some u ∧
      m'.getCellValue j = if u ≠ 0 then clamp m.config.minLogOdds m.config.maxLogOdds (fl (m.getCellValue j + u)) else m.getCellValue j := by
  obtain ⟨l, h1, h2, h3⟩ := gridIndices_spec f.minIndex f.maxIndex hf.box
  obtain ⟨m', u, g1, g2, g3, g4, g5⟩ := scan_cells hl hs hsf hw hf hj l h2 (fun i hi => (h3 i).1 hi) m hm rfl
  refine ⟨m', u, ?_, g2, g3, g4, ?_⟩
  · unfold Single.Scan.updateMap
    rw [h1]
    exact g1
  · rw [g5]
    simp [(h3 j).2 hj]

theorem seen_change {logF sqrtF : ℚ → ℚ} (hl : IsLogSingle logF) (hs : IsSqrtSingle sqrtF) (hsf : ∀ x, IsFloat (sqrtF x)) {f : Single.Scan} {w M N : ℚ} (hw : 0 < w)
    (hf : UsableScan f w M N) {j : Index 3} {P : ℝ → Prop} (h : SeesCell f w M N j P) :
    ∃ (u : ℚ) (exact : ℝ), f.view.cellChange logF sqrtF (f.negativeZero j) w j = some u ∧ P exact ∧ |(u : ℝ) - exact| ≤ scanError f.view := by
  obtain ⟨q, i, d, u, h1, h2, -, h4, h5, h6⟩ := C95_cell_partial logF sqrtF hl hs hsf (f.negativeZero j) h.sign f.view hf.scaled hf.grid hf.unit w hw j (hf.small j h.inBox) M N
    (hf.cell j h.inBox) hf.position h.offAxis h.near h.far
  obtain ⟨m, e, g1, g2, g3⟩ := h.pixels q i d h1 h2 h4
  rw [g1] at h6
  obtain ⟨e', g4, g5⟩ := h6
  rw [g2] at g4
  obtain rfl := Option.some.inj g4
  exact ⟨u, e, h5, g3, g5⟩

end SingleLidarClearing
open SingleCamera SingleMeasurement SinglePoses SingleCell SingleLidar SingleLidarCell SingleLidarClearing

/-- **One scan.** A scan that sees a cell adds one number to its value, with one rounding and within the bounds: the exact update of a pixel next to the cell, up to the error
bound. -/
theorem C98_change_partial (logF sqrtF : ℚ → ℚ) (hl : IsLogSingle logF) (hs : IsSqrtSingle sqrtF) (hsf : ∀ x, IsFloat (sqrtF x)) (m : HashedBlocks) (hm : m.Wf)
    (hw : 0 < m.config.minCellWidth) (j : Index 3) (M N : ℚ) (f : Single.Scan) (hf : UsableScan f m.config.minCellWidth M N) (P : ℝ → Prop)
    (h : SeesCell f m.config.minCellWidth M N j P) :
    ∃ (m' : HashedBlocks) (u : ℚ) (exact : ℝ), Single.Scan.updateMap logF sqrtF m f = some m' ∧ P exact ∧ |(u : ℝ) - exact| ≤ scanError f.view ∧
      m'.getCellValue j = if u = 0 then m.getCellValue j else clamp m.config.minLogOdds m.config.maxLogOdds (fl (m.getCellValue j + u)) := by
  obtain ⟨m2, u, g1, g2, g3, g4, g5⟩ := scan_map hl hs hsf hw hf hm h.inBox
  obtain ⟨u', e, c1, c2, c3⟩ := seen_change hl hs hsf hw hf h
  rw [g4] at c1
  obtain rfl := Option.some.inj c1
  exact ⟨m2, u, e, g1, c2, c3, by rw [g5]; simp only [ne_eq, ite_not]⟩

/-- **Clearing.** Every scan that sees a cell with an exact update of at most `-δ` (and the error bound) lowers its value by `δ` less one rounding error, down to the minimum. -/
theorem C98_cleared_partial (logF sqrtF : ℚ → ℚ) (hl : IsLogSingle logF) (hs : IsSqrtSingle sqrtF) (hsf : ∀ x, IsFloat (sqrtF x)) (m : HashedBlocks) (hm : m.Wf)
    (hc : m.config.isValid = true) (B : ℚ) (hlo : |m.config.minLogOdds| ≤ B) (hhi : |m.config.maxLogOdds| ≤ B) (j : Index 3) (hv : |m.getCellValue j| ≤ B) (M N δ : ℚ) (hδ : 0 < δ)
    (hround : (B + δ) / 2 ^ 24 ≤ δ) (scans : List Single.Scan)
    (hf : ∀ f ∈ scans, UsableScan f m.config.minCellWidth M N ∧ SeesCell f m.config.minCellWidth M N j fun exact => exact ≤ -(δ + scanError f.view)) :
    ∃ m', scans.foldlM (Single.Scan.updateMap logF sqrtF) m = some m' ∧ (scans ≠ [] → m.config.minLogOdds ≤ m'.getCellValue j) ∧
      m'.getCellValue j ≤ max m.config.minLogOdds (m.getCellValue j - scans.length * (δ - (B + δ) / 2 ^ 24)) := by
  simp only [MapBaseConfig.isValid, Bool.and_eq_true, decide_eq_true_eq] at hc
  obtain ⟨m', h1, h2, h3⟩ := lowered (Single.Scan.updateMap logF sqrtF) m.config hc.2.le B hlo hhi j δ hδ scans
    (fun f hf' m1 w1 c1 => by
      obtain ⟨uf, sf⟩ := hf f hf'
      rw [← c1] at uf
      obtain ⟨m2, u, g1, g2, g3, g4, g5⟩ := scan_map hl hs hsf (by rw [c1]; exact hc.1) uf w1 sf.inBox
      rw [c1] at uf g4 g5
      obtain ⟨u', e, k1, k2, k3⟩ := seen_change hl hs hsf hc.1 uf sf
      rw [g4] at k1
      obtain rfl := Option.some.inj k1
      have hu : u ≤ -δ := by
        have := abs_le.1 k3
        have h6 : (u : ℝ) ≤ ((-δ : ℚ) : ℝ) := by push_cast; linarith [this.2]
        exact_mod_cast h6
      rw [if_pos (by linarith)] at g5
      exact ⟨m2, u, g1, g2, g3.trans c1, hu, g5⟩) m (m.getCellValue j) hm rfl hv (le_max_right _ _) (by linarith)
  exact ⟨m', h1, fun h => h2 (Or.inl h), h3⟩

/-- **Enough scans** clear the cell: it has the minimum exactly. -/
theorem C98_free_partial (logF sqrtF : ℚ → ℚ) (hl : IsLogSingle logF) (hs : IsSqrtSingle sqrtF) (hsf : ∀ x, IsFloat (sqrtF x)) (m : HashedBlocks) (hm : m.Wf)
    (hc : m.config.isValid = true) (B : ℚ) (hlo : |m.config.minLogOdds| ≤ B) (hhi : |m.config.maxLogOdds| ≤ B) (j : Index 3) (hv : |m.getCellValue j| ≤ B) (M N δ : ℚ) (hδ : 0 < δ)
    (hround : (B + δ) / 2 ^ 24 ≤ δ) (scans : List Single.Scan) (hne : scans ≠ [])
    (hf : ∀ f ∈ scans, UsableScan f m.config.minCellWidth M N ∧ SeesCell f m.config.minCellWidth M N j fun exact => exact ≤ -(δ + scanError f.view))
    (hn : m.getCellValue j - m.config.minLogOdds ≤ scans.length * (δ - (B + δ) / 2 ^ 24)) :
    ∃ m', scans.foldlM (Single.Scan.updateMap logF sqrtF) m = some m' ∧ m'.getCellValue j = m.config.minLogOdds := by
  obtain ⟨m', h1, h2, h3⟩ := C98_cleared_partial logF sqrtF hl hs hsf m hm hc B hlo hhi j hv M N δ hδ hround scans hf
  exact ⟨m', h1, le_antisymm (h3.trans (max_le le_rfl (by linarith))) (h2 hne)⟩

/-- **Appearing.** Every scan that sees a cell with an exact update of at least `δ` (and the error bound) raises its value by `δ` less one rounding error, up to the maximum. -/
theorem C98_appears_partial (logF sqrtF : ℚ → ℚ) (hl : IsLogSingle logF) (hs : IsSqrtSingle sqrtF) (hsf : ∀ x, IsFloat (sqrtF x)) (m : HashedBlocks) (hm : m.Wf)
    (hc : m.config.isValid = true) (B : ℚ) (hlo : |m.config.minLogOdds| ≤ B) (hhi : |m.config.maxLogOdds| ≤ B) (j : Index 3) (hv : |m.getCellValue j| ≤ B) (M N δ : ℚ) (hδ : 0 < δ)
    (hround : (B + δ) / 2 ^ 24 ≤ δ) (scans : List Single.Scan)
    (hf : ∀ f ∈ scans, UsableScan f m.config.minCellWidth M N ∧ SeesCell f m.config.minCellWidth M N j fun exact => δ + scanError f.view ≤ exact) :
    ∃ m', scans.foldlM (Single.Scan.updateMap logF sqrtF) m = some m' ∧ (scans ≠ [] → m'.getCellValue j ≤ m.config.maxLogOdds) ∧
      min m.config.maxLogOdds (m.getCellValue j + scans.length * (δ - (B + δ) / 2 ^ 24)) ≤ m'.getCellValue j := by
  simp only [MapBaseConfig.isValid, Bool.and_eq_true, decide_eq_true_eq] at hc
  obtain ⟨m', h1, h2, h3⟩ := raised (Single.Scan.updateMap logF sqrtF) m.config hc.2.le B hlo hhi j δ hδ scans
    (fun f hf' m1 w1 c1 => by
      obtain ⟨uf, sf⟩ := hf f hf'
      rw [← c1] at uf
      obtain ⟨m2, u, g1, g2, g3, g4, g5⟩ := scan_map hl hs hsf (by rw [c1]; exact hc.1) uf w1 sf.inBox
      rw [c1] at uf g4 g5
      obtain ⟨u', e, k1, k2, k3⟩ := seen_change hl hs hsf hc.1 uf sf
      rw [g4] at k1
      obtain rfl := Option.some.inj k1
      have hu : δ ≤ u := by
        have := abs_le.1 k3
        have h6 : (δ : ℝ) ≤ (u : ℝ) := by linarith [this.1]
        exact_mod_cast h6
      rw [if_pos (by linarith)] at g5
      exact ⟨m2, u, g1, g2, g3.trans c1, hu, g5⟩) m (m.getCellValue j) hm rfl hv (min_le_right _ _) (by linarith)
  exact ⟨m', h1, fun h => h2 (Or.inl h), h3⟩

/-- **Unseen cells** keep their values exactly: cells that are not in the box, not within the range of the lidar, or with no pixel of the image next to them. -/
theorem C98_unseen (logF sqrtF : ℚ → ℚ) (hl : IsLogSingle logF) (hs : IsSqrtSingle sqrtF) (hsf : ∀ x, IsFloat (sqrtF x)) (m : HashedBlocks) (hm : m.Wf)
    (hw : 0 < m.config.minCellWidth) (f : Single.Scan) (M N : ℚ) (hf : UsableScan f m.config.minCellWidth M N) (j : Index 3)
    (h : ¬SingleLidarClearing.InBox f j ∨ OutOfRange f m.config.minCellWidth M N j ∨
      (OffAxis f m.config.minCellWidth M N j ∧ f.negativeZero j 0 = false ∧
        f.view.minRange + rangeError (positionError M N) (exactRange f.view m.config.minCellWidth j) ≤ exactRange f.view m.config.minCellWidth j ∧
        exactRange f.view m.config.minCellWidth j ≤ f.view.maxRange - rangeError (positionError M N) (exactRange f.view m.config.minCellWidth j) ∧
        ∀ (q : Point 3) (i : Idx2), (∀ k, |q k - exactCenter f.view m.config.minCellWidth j k| ≤ positionError M N) → NextTo f.view.grid i q → f.view.image.at i = none)) :
    ∃ m', Single.Scan.updateMap logF sqrtF m f = some m' ∧ m'.getCellValue j = m.getCellValue j := by
  by_cases hj : SingleLidarClearing.InBox f j
  · obtain ⟨m', u, h1, -, -, h4, h5⟩ := scan_map hl hs hsf hw hf hm hj
    have hz : f.view.cellChange logF sqrtF (f.negativeZero j) m.config.minCellWidth j = some 0 := by
      rcases h with h | h | ⟨a1, a2, a3, a4, a5⟩
      · exact absurd hj h
      · exact C95_outside logF sqrtF hs (f.negativeZero j) f.view hf.unit _ hw j (hf.small j hj) M N (hf.cell j hj) hf.position h
      · obtain ⟨q, i, d, u', b1, b2, -, -, b5, b6⟩ := C95_cell_partial logF sqrtF hl hs hsf (f.negativeZero j) a2 f.view hf.scaled hf.grid hf.unit _ hw j (hf.small j hj) M N
          (hf.cell j hj) hf.position a1 a3 a4
        rw [a5 q i b1 b2] at b6
        rw [b5, b6]
    rw [hz] at h4
    obtain rfl := Option.some.inj h4
    exact ⟨m', h1, by rw [h5, if_neg (by simp)]⟩
  · obtain ⟨l, h1, h2, h3⟩ := gridIndices_spec f.minIndex f.maxIndex hf.box
    obtain ⟨m', g1, g2⟩ := scan_others hl hs hsf hw hf j l (fun i hi => (h3 i).1 hi) (fun hi => hj ((h3 j).1 hi)) m hm rfl
    exact ⟨m', by unfold Single.Scan.updateMap; rw [h1]; exact g1, g2⟩

/-- **In front of the surface.** If a pixel measured at least three standard deviations (and the rounding error) more than the cell's distance, the exact update is that of free
space. -/
theorem C98_in_front (f : Single.Scan) (w M N : ℚ) (hf : UsableScan f w M N) (j : Index 3) (distance measured : ℚ)
    (hd : |(distance : ℝ) - exactRange f.view w j| ≤ rangeError (positionError M N) (exactRange f.view w j))
    (h : exactRange f.view w j + rangeError (positionError M N) (exactRange f.view w j) ≤ measured - 3 * f.view.ray.rangeSigma) :
    f.view.ray.exact.distanceUpdate distance measured = some (Real.log ((1 - f.view.ray.scalingFree) / (1 + f.view.ray.scalingFree))) := by
  have hs := hf.scaled
  have hsc : f.view.ray.exact.Scaled := by
    unfold ContinuousRayConfig.Scaled ContinuousRayConfig.Valid Single.RayConfig.exact
    dsimp only
    exact ⟨⟨by exact_mod_cast hs.sigma, by exact_mod_cast hs.free.1, by exact_mod_cast hs.occupied.1⟩, by exact_mod_cast hs.free.2.1, by exact_mod_cast hs.occupied.2⟩
  obtain ⟨u, h1, -, -, -, h2⟩ := C42_ray_beam_partial f.view.ray.exact hsc (distance : ℝ) (measured : ℝ)
  rw [h1, h2]
  · rfl
  · have := (abs_le.1 hd).2
    show (distance : ℝ) ≤ (measured : ℝ) - 3 * (f.view.ray.rangeSigma : ℝ)
    linarith

/-- **Behind the surface.** If a pixel measured between one and three standard deviations less than the cell's distance, by more than the rounding error, the exact update is at
least this positive number. -/
theorem C98_behind (f : Single.Scan) (w M N : ℚ) (hf : UsableScan f w M N) (j : Index 3) (distance measured : ℚ)
    (hd : |(distance : ℝ) - exactRange f.view w j| ≤ rangeError (positionError M N) (exactRange f.view w j))
    (h1 : measured + f.view.ray.rangeSigma ≤ exactRange f.view w j - rangeError (positionError M N) (exactRange f.view w j))
    (h3 : exactRange f.view w j + rangeError (positionError M N) (exactRange f.view w j) ≤ measured + 3 * f.view.ray.rangeSigma) :
    ∃ u, f.view.ray.exact.distanceUpdate distance measured = some u ∧ 0 < Real.log ((2 + f.view.ray.scalingOccupied) / (2 - f.view.ray.scalingOccupied)) ∧
      Real.log ((2 + f.view.ray.scalingOccupied) / (2 - f.view.ray.scalingOccupied)) ≤ u := by
  have hs := hf.scaled
  have hsc : f.view.ray.exact.Scaled := by
    unfold ContinuousRayConfig.Scaled ContinuousRayConfig.Valid Single.RayConfig.exact
    dsimp only
    exact ⟨⟨by exact_mod_cast hs.sigma, by exact_mod_cast hs.free.1, by exact_mod_cast hs.occupied.1⟩, by exact_mod_cast hs.free.2.1, by exact_mod_cast hs.occupied.2⟩
  have a := abs_le.1 hd
  have g1 : (measured : ℝ) + (f.view.ray.rangeSigma : ℝ) ≤ (distance : ℝ) := by linarith [a.1]
  have g3 : (distance : ℝ) ≤ (measured : ℝ) + 3 * (f.view.ray.rangeSigma : ℝ) := by linarith [a.2]
  obtain ⟨u, k1, k2⟩ := SingleClearing.ray_behind f.view.ray.exact hsc (depth := (distance : ℝ)) (measured := (measured : ℝ)) g1 g3
  refine ⟨u, k1, Real.log_pos ?_, k2⟩
  have o1 : (0 : ℝ) < f.view.ray.scalingOccupied := by exact_mod_cast hs.occupied.1
  have o2 : (f.view.ray.scalingOccupied : ℝ) ≤ 1 := by exact_mod_cast hs.occupied.2
  rw [lt_div_iff₀ (by linarith)]
  linarith

/-- **On the axis.** If a cell of the box is exactly above the lidar, the update of the map is undefined: NaN is converted to an index. -/
theorem C98_axis_fails : ∃ (m : HashedBlocks) (f : Single.Scan), m.config.isValid = true ∧ m.Wf ∧ f.view.ray.Scaled ∧ normSq f.view.pose.q = 1 ∧
    (∀ i, 0 < f.view.grid.scale i ∧ |f.view.grid.offset i| ≤ 32 / 10) ∧ (∀ k, f.minIndex k ≤ f.maxIndex k) ∧
    ∀ logF sqrtF : ℚ → ℚ, IsSqrtSingle sqrtF → Single.Scan.updateMap logF sqrtF m f = none := by
  obtain ⟨v, w, j, h1, h2, h3, h4, -, -, h5⟩ := C95_axis_fails
  refine ⟨HashedBlocks.create ⟨w, -2, 4⟩ 0, ⟨v, j, j, fun _ _ => false⟩, ?_, List.nodup_nil, h1, h2, h4, fun k => le_rfl, fun logF sqrtF hs => ?_⟩
  · simp only [MapBaseConfig.isValid, Bool.and_eq_true, decide_eq_true_eq]
    exact ⟨h3, by norm_num [HashedBlocks.create]⟩
  · obtain ⟨l, g1, -, g3⟩ := gridIndices_spec j j (fun k => le_rfl)
    have hx := h5 logF sqrtF (fun _ => false) hs
    unfold Single.LidarView.cellChange at hx
    unfold Single.Scan.updateMap
    dsimp only
    rw [g1]
    cases l with
    | nil => exact absurd ((g3 j).2 fun k => ⟨le_rfl, le_rfl⟩) (by simp)
    | cons i t =>
      have hi : i = j := funext fun k => le_antisymm ((g3 i).1 (List.mem_cons_self ..) k).2 ((g3 i).1 (List.mem_cons_self ..) k).1
      subst hi
      have hz : Single.Scan.updateCell logF sqrtF ⟨v, i, i, fun _ _ => false⟩ (HashedBlocks.create ⟨w, -2, 4⟩ 0) i = none := by
        unfold Single.Scan.updateCell
        rw [Option.map_eq_none_iff] at hx ⊢
        exact hx
      show (i :: t).foldlM _ _ = none
      rw [List.foldlM_cons, hz]
      rfl

/-! ## Example -/

namespace SingleLidarClearing

/-- The lidar of the example of C95 sees a cell one metre in front of the wall. -/
def clearScan : Single.Scan := ⟨exampleLidar fun _ => 0, ![30, 1, -2], ![32, 3, 0], fun _ _ => false⟩

theorem clearScan_cell (j : Index 3) (k : Fin 3) : exactCenter clearScan.view (1 / 8) j k = ((j k : ℚ) + 1 / 2) * (1 / 8) := by
  fin_cases k <;> simp [exactCenter, exactRotate, clearScan, exampleLidar]

theorem clearScan_box {j : Index 3} (hj : InBox clearScan j) : (30 ≤ j 0 ∧ j 0 ≤ 32) ∧ (1 ≤ j 1 ∧ j 1 ≤ 3) ∧ (-2 ≤ j 2 ∧ j 2 ≤ 0) := by
  have h0 := hj 0
  have h1 := hj 1
  have h2 := hj 2
  simpa [clearScan] using And.intro h0 (And.intro h1 h2)

theorem clearScan_usable : UsableScan clearScan (1 / 8) 5 0 where
  scaled := (exampleLidar_ok fun _ => 0).1
  grid := (exampleLidar_ok fun _ => 0).2.2
  unit := by
    have := (exampleLidar_ok fun _ => 0).2.1
    show |normSq (exampleLidar fun _ => 0).pose.q - 1| ≤ 1 / 100
    rw [this]; norm_num
  position := fun k => by norm_num [clearScan, exampleLidar]
  box := by decide
  small := fun j hj k => by
    have := clearScan_box hj
    fin_cases k <;> simp only [Fin.zero_eta, Fin.mk_one, Fin.reduceFinMk] <;> rw [abs_lt] <;> constructor <;> omega
  cell := fun j hj k => by
    obtain ⟨⟨a1, a2⟩, ⟨b1, b2⟩, c1, c2⟩ := clearScan_box hj
    have a1' : (30 : ℚ) ≤ j 0 := by exact_mod_cast a1
    have a2' : (j 0 : ℚ) ≤ 32 := by exact_mod_cast a2
    have b1' : (1 : ℚ) ≤ j 1 := by exact_mod_cast b1
    have b2' : (j 1 : ℚ) ≤ 3 := by exact_mod_cast b2
    have c1' : (-2 : ℚ) ≤ j 2 := by exact_mod_cast c1
    have c2' : (j 2 : ℚ) ≤ 0 := by exact_mod_cast c2
    fin_cases k <;> simp only [Fin.zero_eta, Fin.mk_one, Fin.reduceFinMk] <;> rw [abs_le] <;> constructor <;> linarith
  axis := fun j hj => by
    obtain ⟨⟨a1, -⟩, -⟩ := clearScan_box hj
    have a1' : (30 : ℚ) ≤ j 0 := by exact_mod_cast a1
    left; left
    rw [clearScan_cell, abs_of_pos (by linarith)]
    have hp : positionError 5 0 = 365 / 2 ^ 24 := by norm_num [positionError]
    rw [hp]
    linarith

theorem arctan_small {x b : ℝ} (h : |x| ≤ b) : |Real.arctan x| ≤ b := by
  have hb : 0 ≤ b := (abs_nonneg _).trans h
  have h1 := Real.le_tan (Real.arctan_nonneg.2 hb) (Real.arctan_lt_pi_div_two b)
  rw [Real.tan_arctan] at h1
  have h2 := abs_le.1 h
  have h3 := Real.arctan_mono h2.1
  have h4 := Real.arctan_mono h2.2
  rw [Real.arctan_neg] at h3
  rw [abs_le]
  constructor <;> linarith

theorem index_in {i n : Int} {s o θ : ℝ} (hs : 0 < s) (hs' : s ≤ 1 / 50) (hi : |i * s + o - θ| ≤ s / 2 + 6 / 10 ^ 6) (hθ : |θ| ≤ 1 / 10) (ho : o ≤ -(2 / 5))
    (hn : 1 / 5 - o ≤ n * s) : 0 ≤ i ∧ i < n := by
  have a := abs_le.1 hi
  have b := abs_le.1 hθ
  constructor
  · by_contra hlt
    push Not at hlt
    have : (i : ℝ) ≤ -1 := by exact_mod_cast (by omega : i ≤ -1)
    have := mul_le_mul_of_nonneg_right this hs.le
    linarith [a.1]
  · by_contra hge
    push Not at hge
    have : (n : ℝ) ≤ i := by exact_mod_cast hge
    have := mul_le_mul_of_nonneg_right this hs.le
    linarith [a.2]

theorem clearScan_sees : SeesCell clearScan (1 / 8) 5 0 ![31, 2, -1] fun exact => exact ≤ -((3 / 8 : ℚ) + scanError clearScan.view) := by
  have e0 : exactCenter clearScan.view (1 / 8) ![31, 2, -1] 0 = 63 / 16 := by rw [clearScan_cell]; norm_num
  have e1 : exactCenter clearScan.view (1 / 8) ![31, 2, -1] 1 = 5 / 16 := by rw [clearScan_cell]; norm_num
  have e2 : exactCenter clearScan.view (1 / 8) ![31, 2, -1] 2 = -1 / 16 := by rw [clearScan_cell, show (![31, 2, -1] : Index 3) 2 = -1 from rfl]; norm_num
  have hp : positionError 5 0 = 365 / 2 ^ 24 := by norm_num [positionError]
  have hin : InBox clearScan ![31, 2, -1] := by unfold InBox; decide
  obtain ⟨r1, r2⟩ := range_between (v := clearScan.view) (w := 1 / 8) (index := ![31, 2, -1]) (lo := 3) (hi := 4) (by norm_num) (by norm_num)
    (by rw [e0, e1, e2]; norm_num) (by rw [e0, e1, e2]; norm_num)
  push_cast at r1 r2
  have hr : rangeError (positionError 5 0) (exactRange clearScan.view (1 / 8) ![31, 2, -1]) ≤ 1 / 10000 := by
    rw [hp]
    unfold rangeError
    push_cast
    norm_num
    linarith
  have hmin : ((clearScan.view.minRange : ℚ) : ℝ) = 1 / 2 := by norm_num [clearScan, exampleLidar]
  have hmax : ((clearScan.view.maxRange : ℚ) : ℝ) = 20 := by norm_num [clearScan, exampleLidar]
  have hsig : ((clearScan.view.ray.rangeSigma : ℚ) : ℝ) = 1 / 8 := by norm_num [clearScan, exampleLidar]
  refine ⟨hin, ?_, rfl, by rw [hmin]; linarith, by rw [hmax]; linarith, ?_⟩
  · left
    rw [e0, hp, abs_of_pos (by norm_num)]
    norm_num
  · rintro q i d hq ⟨el, az, t1, t2, t3, t4⟩ hd
    have q0 := hq 0
    have q1 := hq 1
    have q2 := hq 2
    rw [e0, hp] at q0
    rw [e1, hp] at q1
    rw [e2, hp] at q2
    have b0 := abs_le.1 q0
    have b1 := abs_le.1 q1
    have b2 := abs_le.1 q2
    have x0 : (3 : ℝ) ≤ q 0 := by
      have : (3 : ℚ) ≤ q 0 := by norm_num at b0; linarith [b0.1]
      exact_mod_cast this
    have x1 : |(q 1 : ℝ)| ≤ 3 / 10 + 1 / 50 := by
      have : |q 1| ≤ 3 / 10 + 1 / 50 := by rw [abs_le]; norm_num at b1 ⊢; constructor <;> linarith [b1.1, b1.2]
      have := (Rat.cast_le (K := ℝ)).2 this
      push_cast at this
      exact this
    have x2 : |(q 2 : ℝ)| ≤ 1 / 10 := by
      have : |q 2| ≤ 1 / 10 := by rw [abs_le]; norm_num at b2 ⊢; constructor <;> linarith [b2.1, b2.2]
      have := (Rat.cast_le (K := ℝ)).2 this
      push_cast at this
      exact this
    have x0' : (39 / 10 : ℝ) ≤ q 0 := by
      have : (39 / 10 : ℚ) ≤ q 0 := by norm_num at b0; linarith [b0.1]
      have := (Rat.cast_le (K := ℝ)).2 this
      push_cast at this
      exact this
    have hpn : (3 : ℝ) ≤ Wavemap.planarNorm fun k => q k := by
      unfold Wavemap.planarNorm
      refine Real.le_sqrt_of_sq_le ?_
      dsimp only
      nlinarith [mul_self_nonneg (q 1 : ℝ)]
    have hel : |el| ≤ 1 / 10 := by
      rw [t1.front (by linarith)]
      refine arctan_small ?_
      rw [abs_div, abs_of_pos (show (0 : ℝ) < Wavemap.planarNorm fun k => (q k : ℝ) by linarith), div_le_iff₀ (by linarith)]
      linarith
    have haz : |az| ≤ 1 / 10 := by
      rw [t3.front (by linarith)]
      refine arctan_small ?_
      rw [abs_div, abs_of_pos (show (0 : ℝ) < (q 0 : ℝ) by linarith), div_le_iff₀ (by linarith)]
      linarith
    have s0 : (1 / 100 : ℚ) ≤ clearScan.view.grid.scale 0 ∧ clearScan.view.grid.scale 0 ≤ 1 / 50 := by decide +kernel
    have s1 : (1 / 200 : ℚ) ≤ clearScan.view.grid.scale 1 ∧ clearScan.view.grid.scale 1 ≤ 1 / 50 := by decide +kernel
    have s0R := And.intro ((Rat.cast_le (K := ℝ)).2 s0.1) ((Rat.cast_le (K := ℝ)).2 s0.2)
    have s1R := And.intro ((Rat.cast_le (K := ℝ)).2 s1.1) ((Rat.cast_le (K := ℝ)).2 s1.2)
    push_cast at s0R s1R t2 t4
    have o0 : ((clearScan.view.grid.offset 0 : ℚ) : ℝ) = -(2 / 5) := by norm_num [clearScan, exampleLidar, Single.Grid.lidar]
    have o1 : ((clearScan.view.grid.offset 1 : ℚ) : ℝ) = -3 := by norm_num [clearScan, exampleLidar, Single.Grid.lidar]
    have i1 : 0 ≤ i.1 ∧ i.1 < 64 := index_in (n := 64) (by linarith [s0R.1]) s0R.2 t2 hel (by rw [o0]) (by rw [o0]; push_cast; linarith [s0R.1])
    have i2 : 0 ≤ i.2 ∧ i.2 < 1024 := index_in (n := 1024) (by linarith [s1R.1]) s1R.2 t4 haz (by rw [o1]; norm_num) (by rw [o1]; push_cast; linarith [s1R.1])
    have him : clearScan.view.image.at i = some 5 := by
      unfold Image.at Image.inBounds
      rw [if_pos]
      · rfl
      · simp only [clearScan, exampleLidar, Bool.and_eq_true, decide_eq_true_eq]
        exact ⟨⟨⟨i1.1, i2.1⟩, decide_eq_true i1.2⟩, decide_eq_true i2.2⟩
    refine ⟨5, _, him, C98_in_front clearScan (1 / 8) 5 0 clearScan_usable ![31, 2, -1] d 5 hd (by rw [hsig]; push_cast; linarith), ?_⟩
    have hlog := Real.log_le_sub_one_of_pos (show (0 : ℝ) < 3 / 5 by norm_num)
    have el : (1 - ((clearScan.view.ray.scalingFree : ℚ) : ℝ)) / (1 + (clearScan.view.ray.scalingFree : ℚ)) = 3 / 5 := by norm_num [clearScan, exampleLidar]
    rw [el]
    have hk : Single.kEpsilon ≤ 1 / 1000 := by decide +kernel
    have hkR := (Rat.cast_le (K := ℝ)).2 hk
    have hce : scanError clearScan.view ≤ 1 / 50 := by
      unfold scanError
      norm_num [clearScan, exampleLidar] at hkR ⊢
      linarith
    push_cast
    linarith

/-- The same lidar sees a cell behind the surface of the wall. -/
def wallScan : Single.Scan := ⟨exampleLidar fun _ => 0, ![40, 1, -2], ![42, 3, 0], fun _ _ => false⟩

theorem wallScan_cell (j : Index 3) (k : Fin 3) : exactCenter wallScan.view (1 / 8) j k = ((j k : ℚ) + 1 / 2) * (1 / 8) := by
  fin_cases k <;> simp [exactCenter, exactRotate, wallScan, exampleLidar]

theorem wallScan_box {j : Index 3} (hj : InBox wallScan j) : (40 ≤ j 0 ∧ j 0 ≤ 42) ∧ (1 ≤ j 1 ∧ j 1 ≤ 3) ∧ (-2 ≤ j 2 ∧ j 2 ≤ 0) := by
  have h0 := hj 0
  have h1 := hj 1
  have h2 := hj 2
  simpa [wallScan] using And.intro h0 (And.intro h1 h2)

theorem wallScan_usable : UsableScan wallScan (1 / 8) 6 0 where
  scaled := (exampleLidar_ok fun _ => 0).1
  grid := (exampleLidar_ok fun _ => 0).2.2
  unit := by
    have := (exampleLidar_ok fun _ => 0).2.1
    show |normSq (exampleLidar fun _ => 0).pose.q - 1| ≤ 1 / 100
    rw [this]; norm_num
  position := fun k => by norm_num [wallScan, exampleLidar]
  box := by decide
  small := fun j hj k => by
    have := wallScan_box hj
    fin_cases k <;> simp only [Fin.zero_eta, Fin.mk_one, Fin.reduceFinMk] <;> rw [abs_lt] <;> constructor <;> omega
  cell := fun j hj k => by
    obtain ⟨⟨a1, a2⟩, ⟨b1, b2⟩, c1, c2⟩ := wallScan_box hj
    have a1' : (40 : ℚ) ≤ j 0 := by exact_mod_cast a1
    have a2' : (j 0 : ℚ) ≤ 42 := by exact_mod_cast a2
    have b1' : (1 : ℚ) ≤ j 1 := by exact_mod_cast b1
    have b2' : (j 1 : ℚ) ≤ 3 := by exact_mod_cast b2
    have c1' : (-2 : ℚ) ≤ j 2 := by exact_mod_cast c1
    have c2' : (j 2 : ℚ) ≤ 0 := by exact_mod_cast c2
    fin_cases k <;> simp only [Fin.zero_eta, Fin.mk_one, Fin.reduceFinMk] <;> rw [abs_le] <;> constructor <;> linarith
  axis := fun j hj => by
    obtain ⟨⟨a1, -⟩, -⟩ := wallScan_box hj
    have a1' : (40 : ℚ) ≤ j 0 := by exact_mod_cast a1
    left; left
    rw [wallScan_cell, abs_of_pos (by linarith)]
    have hp : positionError 6 0 = 438 / 2 ^ 24 := by norm_num [positionError]
    rw [hp]
    linarith

theorem wallScan_sees_wall : SeesCell wallScan (1 / 8) 6 0 ![41, 2, -1] fun exact => (3 / 8 : ℚ) + scanError wallScan.view ≤ exact := by
  have e0 : exactCenter wallScan.view (1 / 8) ![41, 2, -1] 0 = 83 / 16 := by rw [wallScan_cell]; norm_num
  have e1 : exactCenter wallScan.view (1 / 8) ![41, 2, -1] 1 = 5 / 16 := by rw [wallScan_cell]; norm_num
  have e2 : exactCenter wallScan.view (1 / 8) ![41, 2, -1] 2 = -1 / 16 := by rw [wallScan_cell, show (![41, 2, -1] : Index 3) 2 = -1 from rfl]; norm_num
  have hp : positionError 6 0 = 438 / 2 ^ 24 := by norm_num [positionError]
  have hin : InBox wallScan ![41, 2, -1] := by unfold InBox; decide
  obtain ⟨r1, r2⟩ := range_between (v := wallScan.view) (w := 1 / 8) (index := ![41, 2, -1]) (lo := 515 / 100) (hi := 53 / 10) (by norm_num) (by norm_num)
    (by rw [e0, e1, e2]; norm_num) (by rw [e0, e1, e2]; norm_num)
  push_cast at r1 r2
  have hr : rangeError (positionError 6 0) (exactRange wallScan.view (1 / 8) ![41, 2, -1]) ≤ 1 / 10000 := by
    rw [hp]
    unfold rangeError
    push_cast
    norm_num
    linarith
  have hmin : ((wallScan.view.minRange : ℚ) : ℝ) = 1 / 2 := by norm_num [wallScan, exampleLidar]
  have hmax : ((wallScan.view.maxRange : ℚ) : ℝ) = 20 := by norm_num [wallScan, exampleLidar]
  have hsig : ((wallScan.view.ray.rangeSigma : ℚ) : ℝ) = 1 / 8 := by norm_num [wallScan, exampleLidar]
  refine ⟨hin, ?_, rfl, by rw [hmin]; linarith, by rw [hmax]; linarith, ?_⟩
  · left
    rw [e0, hp, abs_of_pos (by norm_num)]
    norm_num
  · rintro q i d hq ⟨el, az, t1, t2, t3, t4⟩ hd
    have q0 := hq 0
    have q1 := hq 1
    have q2 := hq 2
    rw [e0, hp] at q0
    rw [e1, hp] at q1
    rw [e2, hp] at q2
    have b0 := abs_le.1 q0
    have b1 := abs_le.1 q1
    have b2 := abs_le.1 q2
    have x0 : (3 : ℝ) ≤ q 0 := by
      have : (3 : ℚ) ≤ q 0 := by norm_num at b0; linarith [b0.1]
      exact_mod_cast this
    have x1 : |(q 1 : ℝ)| ≤ 3 / 10 + 1 / 50 := by
      have : |q 1| ≤ 3 / 10 + 1 / 50 := by rw [abs_le]; norm_num at b1 ⊢; constructor <;> linarith [b1.1, b1.2]
      have := (Rat.cast_le (K := ℝ)).2 this
      push_cast at this
      exact this
    have x2 : |(q 2 : ℝ)| ≤ 1 / 10 := by
      have : |q 2| ≤ 1 / 10 := by rw [abs_le]; norm_num at b2 ⊢; constructor <;> linarith [b2.1, b2.2]
      have := (Rat.cast_le (K := ℝ)).2 this
      push_cast at this
      exact this
    have x0' : (39 / 10 : ℝ) ≤ q 0 := by
      have : (39 / 10 : ℚ) ≤ q 0 := by norm_num at b0; linarith [b0.1]
      have := (Rat.cast_le (K := ℝ)).2 this
      push_cast at this
      exact this
    have hpn : (3 : ℝ) ≤ Wavemap.planarNorm fun k => q k := by
      unfold Wavemap.planarNorm
      refine Real.le_sqrt_of_sq_le ?_
      dsimp only
      nlinarith [mul_self_nonneg (q 1 : ℝ)]
    have hel : |el| ≤ 1 / 10 := by
      rw [t1.front (by linarith)]
      refine arctan_small ?_
      rw [abs_div, abs_of_pos (show (0 : ℝ) < Wavemap.planarNorm fun k => (q k : ℝ) by linarith), div_le_iff₀ (by linarith)]
      linarith
    have haz : |az| ≤ 1 / 10 := by
      rw [t3.front (by linarith)]
      refine arctan_small ?_
      rw [abs_div, abs_of_pos (show (0 : ℝ) < (q 0 : ℝ) by linarith), div_le_iff₀ (by linarith)]
      linarith
    have s0 : (1 / 100 : ℚ) ≤ wallScan.view.grid.scale 0 ∧ wallScan.view.grid.scale 0 ≤ 1 / 50 := by decide +kernel
    have s1 : (1 / 200 : ℚ) ≤ wallScan.view.grid.scale 1 ∧ wallScan.view.grid.scale 1 ≤ 1 / 50 := by decide +kernel
    have s0R := And.intro ((Rat.cast_le (K := ℝ)).2 s0.1) ((Rat.cast_le (K := ℝ)).2 s0.2)
    have s1R := And.intro ((Rat.cast_le (K := ℝ)).2 s1.1) ((Rat.cast_le (K := ℝ)).2 s1.2)
    push_cast at s0R s1R t2 t4
    have o0 : ((wallScan.view.grid.offset 0 : ℚ) : ℝ) = -(2 / 5) := by norm_num [wallScan, exampleLidar, Single.Grid.lidar]
    have o1 : ((wallScan.view.grid.offset 1 : ℚ) : ℝ) = -3 := by norm_num [wallScan, exampleLidar, Single.Grid.lidar]
    have i1 : 0 ≤ i.1 ∧ i.1 < 64 := index_in (n := 64) (by linarith [s0R.1]) s0R.2 t2 hel (by rw [o0]) (by rw [o0]; push_cast; linarith [s0R.1])
    have i2 : 0 ≤ i.2 ∧ i.2 < 1024 := index_in (n := 1024) (by linarith [s1R.1]) s1R.2 t4 haz (by rw [o1]; norm_num) (by rw [o1]; push_cast; linarith [s1R.1])
    have him : wallScan.view.image.at i = some 5 := by
      unfold Image.at Image.inBounds
      rw [if_pos]
      · rfl
      · simp only [wallScan, exampleLidar, Bool.and_eq_true, decide_eq_true_eq]
        exact ⟨⟨⟨i1.1, i2.1⟩, decide_eq_true i1.2⟩, decide_eq_true i2.2⟩
    obtain ⟨u, hu1, -, hu3⟩ := C98_behind wallScan (1 / 8) 6 0 wallScan_usable ![41, 2, -1] d 5 hd (by rw [hsig]; push_cast; linarith) (by rw [hsig]; push_cast; linarith)
    refine ⟨5, u, him, hu1, ?_⟩
    have hlog := Real.one_sub_inv_le_log_of_pos (show (0 : ℝ) < 5 / 3 by norm_num)
    have el : (2 + ((wallScan.view.ray.scalingOccupied : ℚ) : ℝ)) / (2 - (wallScan.view.ray.scalingOccupied : ℚ)) = 5 / 3 := by norm_num [wallScan, exampleLidar]
    rw [el] at hu3
    norm_num at hlog
    have hk : Single.kEpsilon ≤ 1 / 1000 := by decide +kernel
    have hkR := (Rat.cast_le (K := ℝ)).2 hk
    have hce : scanError wallScan.view ≤ 1 / 50 := by
      unfold scanError
      norm_num [wallScan, exampleLidar] at hkR ⊢
      linarith
    push_cast
    linarith

/-- The same lidar with a box of cells closer than its minimum range. -/
def nearScan : Single.Scan := ⟨exampleLidar fun _ => 0, ![0, 0, -1], ![1, 1, 0], fun _ _ => false⟩

theorem nearScan_box {j : Index 3} (hj : InBox nearScan j) : (0 ≤ j 0 ∧ j 0 ≤ 1) ∧ (0 ≤ j 1 ∧ j 1 ≤ 1) ∧ (-1 ≤ j 2 ∧ j 2 ≤ 0) := by
  have h0 := hj 0
  have h1 := hj 1
  have h2 := hj 2
  simpa [nearScan] using And.intro h0 (And.intro h1 h2)

theorem nearScan_usable : UsableScan nearScan (1 / 8) 1 0 where
  scaled := clearScan_usable.scaled
  grid := clearScan_usable.grid
  unit := clearScan_usable.unit
  position := clearScan_usable.position
  box := by decide
  small := fun j hj k => by
    have := nearScan_box hj
    fin_cases k <;> simp only [Fin.zero_eta, Fin.mk_one, Fin.reduceFinMk] <;> rw [abs_lt] <;> constructor <;> omega
  cell := fun j hj k => by
    obtain ⟨⟨a1, a2⟩, ⟨b1, b2⟩, c1, c2⟩ := nearScan_box hj
    have a1' : (0 : ℚ) ≤ j 0 := by exact_mod_cast a1
    have a2' : (j 0 : ℚ) ≤ 1 := by exact_mod_cast a2
    have b1' : (0 : ℚ) ≤ j 1 := by exact_mod_cast b1
    have b2' : (j 1 : ℚ) ≤ 1 := by exact_mod_cast b2
    have c1' : (-1 : ℚ) ≤ j 2 := by exact_mod_cast c1
    have c2' : (j 2 : ℚ) ≤ 0 := by exact_mod_cast c2
    fin_cases k <;> simp only [Fin.zero_eta, Fin.mk_one, Fin.reduceFinMk] <;> rw [abs_le] <;> constructor <;> linarith
  axis := fun j hj => by
    obtain ⟨⟨a1, -⟩, -⟩ := nearScan_box hj
    have a1' : (0 : ℚ) ≤ j 0 := by exact_mod_cast a1
    left; left
    show positionError 1 0 < |exactCenter clearScan.view (1 / 8) j 0|
    rw [clearScan_cell, abs_of_pos (by linarith)]
    have hp : positionError 1 0 = 73 / 2 ^ 24 := by norm_num [positionError]
    rw [hp]
    linarith

theorem nearScan_out : OutOfRange nearScan (1 / 8) 1 0 ![1, 0, -1] := by
  have e0 : exactCenter nearScan.view (1 / 8) ![1, 0, -1] 0 = 3 / 16 := (clearScan_cell _ _).trans (by norm_num)
  have e1 : exactCenter nearScan.view (1 / 8) ![1, 0, -1] 1 = 1 / 16 := (clearScan_cell _ _).trans (by norm_num)
  have e2 : exactCenter nearScan.view (1 / 8) ![1, 0, -1] 2 = -1 / 16 := by
    refine (clearScan_cell _ _).trans ?_
    rw [show (![1, 0, -1] : Index 3) 2 = -1 from rfl]
    norm_num
  obtain ⟨r1, r2⟩ := range_between (v := nearScan.view) (w := 1 / 8) (index := ![1, 0, -1]) (lo := 0) (hi := 1 / 4) (by norm_num) (by norm_num)
    (by rw [e0, e1, e2]; norm_num) (by rw [e0, e1, e2]; norm_num)
  push_cast at r1 r2
  have hp : positionError 1 0 = 73 / 2 ^ 24 := by norm_num [positionError]
  have hmin : ((nearScan.view.minRange : ℚ) : ℝ) = 1 / 2 := by norm_num [nearScan, exampleLidar]
  left
  rw [hmin, hp]
  unfold rangeError
  push_cast
  norm_num
  linarith

end SingleLidarClearing

/-- Seventeen scans clear an occupied cell of a map with the default bounds. -/
example : ∃ m', (List.replicate 17 clearScan).foldlM (Single.Scan.updateMap exampleLog roundedSqrt)
      (HashedBlocksOp.runRounded (HashedBlocks.create ⟨1 / 8, -2, 4⟩ 0) (.set ![31, 2, -1] 4)) = some m' ∧ m'.getCellValue ![31, 2, -1] = -2 := by
  have hw0 : (HashedBlocks.create ⟨1 / 8, -2, 4⟩ 0).Wf := List.nodup_nil
  obtain ⟨w1, c1, -, v1⟩ := runRounded_value (HashedBlocks.create ⟨1 / 8, -2, 4⟩ 0) hw0 (.set ![31, 2, -1] 4) ![31, 2, -1]
  have v1' := v1.trans (if_pos rfl)
  have hc : (HashedBlocksOp.runRounded (HashedBlocks.create ⟨1 / 8, -2, 4⟩ 0) (.set ![31, 2, -1] 4)).config = ⟨1 / 8, -2, 4⟩ := c1
  have := C98_free_partial exampleLog roundedSqrt exampleLog_ok roundedSqrt_ok.1 roundedSqrt_ok.2 _ w1 (by decide +kernel) 4 (by rw [hc]; norm_num) (by rw [hc]; norm_num)
    ![31, 2, -1] (by rw [v1']; norm_num) 5 0 (3 / 8) (by norm_num) (by norm_num) (List.replicate 17 clearScan) (by simp) (fun f hf => by
      obtain rfl := (List.mem_replicate.1 hf).2
      exact ⟨by rw [hc]; exact clearScan_usable, by rw [hc]; exact clearScan_sees⟩) (by rw [v1', hc]; norm_num)
  rwa [hc] at this

/-- Seventeen scans mark a free cell behind the surface of the wall as occupied. -/
example : ∃ m', (List.replicate 17 wallScan).foldlM (Single.Scan.updateMap exampleLog roundedSqrt)
      (HashedBlocksOp.runRounded (HashedBlocks.create ⟨1 / 8, -2, 4⟩ 0) (.set ![41, 2, -1] (-2))) = some m' ∧ m'.getCellValue ![41, 2, -1] = 4 := by
  have hw0 : (HashedBlocks.create ⟨1 / 8, -2, 4⟩ 0).Wf := List.nodup_nil
  obtain ⟨w1, c1, -, v1⟩ := runRounded_value (HashedBlocks.create ⟨1 / 8, -2, 4⟩ 0) hw0 (.set ![41, 2, -1] (-2)) ![41, 2, -1]
  have v1' := v1.trans (if_pos rfl)
  have hc : (HashedBlocksOp.runRounded (HashedBlocks.create ⟨1 / 8, -2, 4⟩ 0) (.set ![41, 2, -1] (-2))).config = ⟨1 / 8, -2, 4⟩ := c1
  obtain ⟨m', h1, h2, h3⟩ := C98_appears_partial exampleLog roundedSqrt exampleLog_ok roundedSqrt_ok.1 roundedSqrt_ok.2 _ w1 (by decide +kernel) 4 (by rw [hc]; norm_num)
    (by rw [hc]; norm_num) ![41, 2, -1] (by rw [v1']; norm_num [abs_of_neg]) 6 0 (3 / 8) (by norm_num) (by norm_num) (List.replicate 17 wallScan) (fun f hf => by
      obtain rfl := (List.mem_replicate.1 hf).2
      exact ⟨by rw [hc]; exact wallScan_usable, by rw [hc]; exact wallScan_sees_wall⟩)
  refine ⟨m', h1, le_antisymm (by have := h2 (by simp); rwa [hc] at this) ?_⟩
  rw [v1', hc] at h3
  refine le_trans ?_ h3
  norm_num

/-- A cell closer than the minimum range keeps its value. -/
example : ∃ m', Single.Scan.updateMap exampleLog roundedSqrt (HashedBlocks.create ⟨1 / 8, -2, 4⟩ 3) nearScan = some m' ∧ m'.getCellValue ![1, 0, -1] = 3 :=
  C98_unseen exampleLog roundedSqrt exampleLog_ok roundedSqrt_ok.1 roundedSqrt_ok.2 (HashedBlocks.create ⟨1 / 8, -2, 4⟩ 3) List.nodup_nil (by norm_num [HashedBlocks.create])
    nearScan 1 0 nearScan_usable ![1, 0, -1] (Or.inr (Or.inl nearScan_out))

example : ∃ (m' : HashedBlocks) (u : ℚ), Single.Scan.updateMap exampleLog roundedSqrt (HashedBlocks.create ⟨1 / 8, -2, 4⟩ 3) clearScan = some m' ∧ (u : ℝ) ≤ -(3 / 8) ∧
    m'.getCellValue ![31, 2, -1] = if u = 0 then 3 else clamp (-2) 4 (fl (3 + u)) := by
  obtain ⟨m', u, e, h1, h2, h3, h4⟩ := C98_change_partial exampleLog roundedSqrt exampleLog_ok roundedSqrt_ok.1 roundedSqrt_ok.2 (HashedBlocks.create ⟨1 / 8, -2, 4⟩ 3) List.nodup_nil
    (by norm_num [HashedBlocks.create]) ![31, 2, -1] 5 0 clearScan clearScan_usable _ clearScan_sees
  refine ⟨m', u, h1, ?_, h4⟩
  have := abs_le.1 h3
  push_cast at h2
  linarith [this.2]

end Wavemap
