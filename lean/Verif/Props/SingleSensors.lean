import Verif.Model.SingleSensors
import Verif.Props.SingleLidarNeighborsCell
/-!
# C101: cameras and lidars that share a map, in single precision
-/
namespace Wavemap
namespace SingleSensors
open Single SingleCell

/-! ## Specification -/

/-- The bound on the difference between the change of a cell and the exact update (C97, C98, C99, C100). -/
noncomputable def integrationError (M N : ℚ) : Integration → ℝ
  | .nearestImage f => SingleClearing.changeError f.view M N
  | .allImage f => SingleNeighborsCell.sumError f.view M N
  | .nearestScan f => SingleLidarClearing.scanError f.view
  | .allScan f => SingleLidarNeighborsCell.sumError f.view
  | .threshold | .prune => 0

/-- The image or scan is usable and sees the cell `j`, and the exact updates by the pixels next to it satisfy `P`. -/
def Seen (w M N : ℚ) (j : Index 3) (P : ℝ → Prop) : Integration → Prop
  | .nearestImage f => SingleClearing.Usable f ∧ SingleClearing.Sees f w M N j P
  | .allImage f => SingleClearing.Usable f ∧ SingleNeighborsCell.SeesAll f w M N j P
  | .nearestScan f => SingleLidarClearing.UsableScan f w M N ∧ SingleLidarClearing.SeesCell f w M N j P
  | .allScan f => SingleLidarNeighborsCell.UsableScanAll f w M N ∧ SingleLidarNeighborsCell.SeesAll f w M N j P
  | .threshold | .prune => False

/-- The cell is outside the box of the image, its depth is outside the camera's range by more than the rounding error, or it is in range but there is no pixel for it. -/
def HiddenFromCamera (w M N : ℚ) (j : Index 3) (f : Frame) (noPixel : Prop) : Prop :=
  (∀ k, |j k| < 2 ^ 22) ∧ (∀ k, |((j k : ℚ) + 1 / 2) * w| ≤ M) ∧ (∀ k, |f.view.pose.t k| ≤ N) ∧
    ((∃ k, j k < f.minIndex k ∨ f.maxIndex k < j k) ∨ exactCell f.view w j 2 < f.view.minRange - positionError M N ∨ f.view.maxRange + positionError M N < exactCell f.view w j 2 ∨
      (f.view.minRange + positionError M N ≤ exactCell f.view w j 2 ∧ exactCell f.view w j 2 ≤ f.view.maxRange - positionError M N ∧
        4 * positionError M N + Single.kEpsilon ≤ exactCell f.view w j 2 ∧ noPixel))

/-- The cell is outside the box of the scan, out of the lidar's range, or in range but there is no pixel for it. -/
def HiddenFromLidar (w M N : ℚ) (j : Index 3) (f : Single.Scan) (noPixel : Prop) : Prop :=
  ¬SingleLidarClearing.InBox f j ∨ SingleLidarClearing.OutOfRange f w M N j ∨
    (SingleLidarClearing.OffAxis f w M N j ∧ f.negativeZero j 0 = false ∧
      f.view.minRange + SingleLidarCell.rangeError (positionError M N) (SingleLidarCell.exactRange f.view w j) ≤ SingleLidarCell.exactRange f.view w j ∧
      SingleLidarCell.exactRange f.view w j ≤ f.view.maxRange - SingleLidarCell.rangeError (positionError M N) (SingleLidarCell.exactRange f.view w j) ∧ noPixel)

/-- The image or scan is usable, but the cell is outside its box, out of the sensor's range or outside the image; or it is not a measurement but an operation on the map. -/
def Unseen (w M N : ℚ) (j : Index 3) : Integration → Prop
  | .nearestImage f => SingleClearing.Usable f ∧ HiddenFromCamera w M N j f (∀ i, SingleClearing.NearPixel f.view w M N j i → f.view.image.at i = none)
  | .allImage f => SingleClearing.Usable f ∧
      HiddenFromCamera w M N j f (∀ lo hi, SingleNeighborsCell.Surrounds f.view w j (positionError M N) lo hi → ∀ i ∈ SingleNeighborsCell.corners lo hi, f.view.image.at i = none)
  | .nearestScan f => SingleLidarClearing.UsableScan f w M N ∧
      HiddenFromLidar w M N j f (∀ (q : Point 3) (i : Idx2), (∀ k, |q k - SingleLidarCell.exactCenter f.view w j k| ≤ positionError M N) →
        SingleLidarCell.NextTo f.view.grid i q → f.view.image.at i = none)
  | .allScan f => SingleLidarNeighborsCell.UsableScanAll f w M N ∧
      HiddenFromLidar w M N j f (∀ (q : Point 3) (lo hi : Index 2), (∀ k, |q k - SingleLidarCell.exactCenter f.view w j k| ≤ positionError M N) →
        SingleLidarNeighborsCell.SurroundsDirection f.view.grid lo hi q → ∀ i ∈ SingleNeighborsCell.corners lo hi, f.view.image.at i = none)
  | .threshold | .prune => True

/-- A history that consists of integrations that see the cell, `n` of them, with exact updates that satisfy `P` for the error bound, and of integrations that do not see it. -/
inductive Sightings (w M N : ℚ) (j : Index 3) (P : ℝ → ℝ → Prop) : List Integration → ℕ → Prop
  | none : Sightings w M N j P [] 0
  | seen {x history n} : Seen w M N j (P (integrationError M N x)) x → Sightings w M N j P history n → Sightings w M N j P (x :: history) (n + 1)
  | unseen {x history n} : Unseen w M N j x → Sightings w M N j P history n → Sightings w M N j P (x :: history) n

/-- The value after adding the numbers one after the other, each with one rounding and within the bounds. -/
def addInTurn (lo hi : ℚ) (v : ℚ) (updates : List ℚ) : ℚ := updates.foldl (fun v u => if u = 0 then v else clamp lo hi (fl (v + u))) v

/-! ## Proofs -/

/-- What a measurement adds to a cell that it sees does not depend on the map. -/
theorem seen_uniform {logF sqrtF : ℚ → ℚ} (hl : IsLogSingle logF) (hs : IsSqrtSingle sqrtF) (hsf : ∀ x, IsFloat (sqrtF x)) {cfg : MapBaseConfig} (hw : 0 < cfg.minCellWidth)
    {j : Index 3} {M N : ℚ} {P : ℝ → Prop} {x : Integration} (h : Seen cfg.minCellWidth M N j P x) :
    ∃ (u : ℚ) (exact : ℝ), P exact ∧ |(u : ℝ) - exact| ≤ integrationError M N x ∧ ∀ m : HashedBlocks, m.Wf → m.config = cfg →
      ∃ m', Integration.updateMap logF sqrtF m x = some m' ∧ m'.Wf ∧ m'.config = cfg ∧
        m'.getCellValue j = if u = 0 then m.getCellValue j else clamp cfg.minLogOdds cfg.maxLogOdds (fl (m.getCellValue j + u)) := by
  cases x with
  | nearestImage f =>
    obtain ⟨hf, sf⟩ := h
    obtain ⟨u, e, c1, c2, c3⟩ := SingleClearing.sees_change hl hf hw sf
    refine ⟨u, e, c2, c3, fun m hm hc => ?_⟩
    subst hc
    obtain ⟨m2, u', g1, g2, g3, g4, g5⟩ := SingleClearing.map_step hl hf hm j sf.inBox
    rw [g4] at c1
    obtain rfl := Option.some.inj c1
    exact ⟨m2, g1, g2, g3, by rw [g5]; simp only [ne_eq, ite_not]⟩
  | allImage f =>
    obtain ⟨hf, sf⟩ := h
    obtain ⟨lo, hi, u, e, c1, c2, c3, c4, -⟩ := C99_cell logF hl f.view hf.scaled hf.focal hf.unit hf.image _ hw j sf.small M N sf.cell sf.position sf.near sf.far sf.front
    refine ⟨u, e, sf.pixels lo hi e c2 c3, c4, fun m hm hc => ?_⟩
    subst hc
    obtain ⟨l, l1, l2, l3⟩ := gridIndices_spec f.minIndex f.maxIndex hf.box
    obtain ⟨m2, u', g1, g2, g3, g4, g5⟩ := SingleNeighborsCell.all_cells hl hf j l l2 m hm
    rw [g4] at c1
    obtain rfl := Option.some.inj c1
    refine ⟨m2, ?_, g2, g3, ?_⟩
    · show Single.Frame.updateMapAll logF m f = some m2
      unfold Single.Frame.updateMapAll
      rw [l1]
      exact g1
    · rw [g5]
      simp [(l3 j).2 sf.inBox]
  | nearestScan f =>
    obtain ⟨hf, sf⟩ := h
    obtain ⟨u, e, c1, c2, c3⟩ := SingleLidarClearing.seen_change hl hs hsf hw hf sf
    refine ⟨u, e, c2, c3, fun m hm hc => ?_⟩
    subst hc
    obtain ⟨m2, u', g1, g2, g3, g4, g5⟩ := SingleLidarClearing.scan_map hl hs hsf hw hf hm sf.inBox
    rw [g4] at c1
    obtain rfl := Option.some.inj c1
    exact ⟨m2, g1, g2, g3, by rw [g5]; simp only [ne_eq, ite_not]⟩
  | allScan f =>
    obtain ⟨hf, sf⟩ := h
    obtain ⟨u, e, c1, c2, c3⟩ := SingleLidarNeighborsCell.sees_change hl hs hsf hw hf sf
    refine ⟨u, e, c2, c3, fun m hm hc => ?_⟩
    subst hc
    obtain ⟨m2, u', g1, g2, g3, g4, g5⟩ := SingleLidarNeighborsCell.scans_map hl hs hsf hw hf hm sf.inBox
    rw [g4] at c1
    obtain rfl := Option.some.inj c1
    exact ⟨m2, g1, g2, g3, by rw [g5]; simp only [ne_eq, ite_not]⟩
  | threshold => exact absurd h id
  | prune => exact absurd h id

theorem seen_step {logF sqrtF : ℚ → ℚ} (hl : IsLogSingle logF) (hs : IsSqrtSingle sqrtF) (hsf : ∀ x, IsFloat (sqrtF x)) {m : HashedBlocks} (hm : m.Wf)
    (hw : 0 < m.config.minCellWidth) {j : Index 3} {M N : ℚ} {P : ℝ → Prop} {x : Integration} (h : Seen m.config.minCellWidth M N j P x) :
    ∃ (m' : HashedBlocks) (u : ℚ) (exact : ℝ), Integration.updateMap logF sqrtF m x = some m' ∧ m'.Wf ∧ m'.config = m.config ∧ P exact ∧ |(u : ℝ) - exact| ≤ integrationError M N x ∧
      m'.getCellValue j = if u = 0 then m.getCellValue j else clamp m.config.minLogOdds m.config.maxLogOdds (fl (m.getCellValue j + u)) := by
  obtain ⟨u, e, h1, h2, h3⟩ := seen_uniform hl hs hsf hw h
  obtain ⟨m', k1, k2, k3, k4⟩ := h3 m hm rfl
  exact ⟨m', u, e, k1, k2, k3, h1, h2, k4⟩

theorem unseen_step {logF sqrtF : ℚ → ℚ} (hl : IsLogSingle logF) (hs : IsSqrtSingle sqrtF) (hsf : ∀ x, IsFloat (sqrtF x)) {m : HashedBlocks} (hm : m.Wf)
    (hw : 0 < m.config.minCellWidth) {j : Index 3} {M N : ℚ} {x : Integration} (h : Unseen m.config.minCellWidth M N j x) :
    ∃ m', Integration.updateMap logF sqrtF m x = some m' ∧ m'.Wf ∧ m'.config = m.config ∧ m'.getCellValue j = m.getCellValue j := by
  cases x with
  | nearestImage f =>
    obtain ⟨hf, h1, h2, h3, h4⟩ := h
    obtain ⟨m2, u, g1, g2, g3, -, -⟩ := SingleClearing.map_step hl hf hm f.minIndex (fun k => ⟨le_rfl, hf.box k⟩)
    obtain ⟨m3, k1, k2⟩ := C97_unseen logF hl m hm hw f hf j M N h1 h2 h3 (by
      rcases h4 with ⟨k, hk⟩ | h4
      · exact Or.inl fun h => by have := h k; omega
      · exact Or.inr h4)
    rw [g1] at k1
    obtain rfl := Option.some.inj k1
    exact ⟨m2, g1, g2, g3, k2⟩
  | allImage f =>
    obtain ⟨hf, h1, h2, h3, h4⟩ := h
    obtain ⟨l, l1, l2, -⟩ := gridIndices_spec f.minIndex f.maxIndex hf.box
    obtain ⟨m2, u, g1, g2, g3, -, -⟩ := SingleNeighborsCell.all_cells hl hf j l l2 m hm
    obtain ⟨m3, k1, k2⟩ := C99_unseen logF hl m hm hw f hf j M N h1 h2 h3 h4
    have g1' : Single.Frame.updateMapAll logF m f = some m2 := by unfold Single.Frame.updateMapAll; rw [l1]; exact g1
    rw [g1'] at k1
    obtain rfl := Option.some.inj k1
    exact ⟨m2, g1', g2, g3, k2⟩
  | nearestScan f =>
    obtain ⟨hf, h4⟩ := h
    obtain ⟨m2, u, g1, g2, g3, -, -⟩ := SingleLidarClearing.scan_map hl hs hsf hw hf hm (j := f.minIndex) (fun k => ⟨le_rfl, hf.box k⟩)
    obtain ⟨m3, k1, k2⟩ := C98_unseen logF sqrtF hl hs hsf m hm hw f M N hf j h4
    rw [g1] at k1
    obtain rfl := Option.some.inj k1
    exact ⟨m2, g1, g2, g3, k2⟩
  | allScan f =>
    obtain ⟨hf, h4⟩ := h
    obtain ⟨m2, u, g1, g2, g3, -, -⟩ := SingleLidarNeighborsCell.scans_map hl hs hsf hw hf hm (j := f.minIndex) (fun k => ⟨le_rfl, hf.toUsableScan.box k⟩)
    obtain ⟨m3, k1, k2⟩ := C100_unseen logF sqrtF hl hs hsf m hm hw f M N hf j h4
    rw [g1] at k1
    obtain rfl := Option.some.inj k1
    exact ⟨m2, g1, g2, g3, k2⟩
  | threshold =>
    obtain ⟨h1, h2, -, h4⟩ := runRounded_value m hm .threshold j
    exact ⟨_, rfl, h1, h2, h4⟩
  | prune =>
    obtain ⟨h1, h2, -, h4⟩ := runRounded_value m hm .prune j
    exact ⟨_, rfl, h1, h2, h4⟩

theorem within {lo hi B : ℚ} (hlt : lo ≤ hi) (hlo : |lo| ≤ B) (hhi : |hi| ≤ B) (v : ℚ) : |clamp lo hi v| ≤ B ∧ lo ≤ clamp lo hi v ∧ clamp lo hi v ≤ hi := by
  refine ⟨clamp_within hlt hlo hhi _, ?_⟩
  rw [clamp_eq hlt]
  exact ⟨le_max_left _ _, max_le hlt (min_le_right _ _)⟩

theorem lower_step {lo hi B v u δ a : ℚ} (hlt : lo ≤ hi) (hv : |v| ≤ B) (hδ : 0 < δ) (hu : u ≤ -δ) (h : v ≤ max lo a) (h0 : 0 ≤ δ - (B + δ) / 2 ^ 24) :
    clamp lo hi (fl (v + u)) ≤ max lo (a - (δ - (B + δ) / 2 ^ 24)) := by
  have hfl : fl (v + u) ≤ v - (δ - (B + δ) / 2 ^ 24) := by
    have k1 := fl_mono (show v + u ≤ v + -δ by linarith)
    have k2 := (abs_le.1 (fl_err (v + -δ))).2
    have k3 : |v + -δ| / 2 ^ 24 ≤ (B + δ) / 2 ^ 24 := by
      refine div_le_div_of_nonneg_right ((abs_add_le _ _).trans ?_) (by norm_num)
      rw [abs_neg, abs_of_pos hδ]
      linarith
    linarith
  rw [clamp_eq hlt]
  refine max_le (le_max_left _ _) ((min_le_left _ _).trans (hfl.trans ?_))
  rcases le_max_iff.1 h with h | h
  · exact le_trans (by linarith) (le_max_left _ _)
  · exact le_trans (by linarith) (le_max_right _ _)

theorem raise_step {lo hi B v u δ a : ℚ} (hlt : lo ≤ hi) (hv : |v| ≤ B) (hδ : 0 < δ) (hu : δ ≤ u) (h : min hi a ≤ v) (h0 : 0 ≤ δ - (B + δ) / 2 ^ 24) :
    min hi (a + (δ - (B + δ) / 2 ^ 24)) ≤ clamp lo hi (fl (v + u)) := by
  have hfl : v + (δ - (B + δ) / 2 ^ 24) ≤ fl (v + u) := by
    have k1 := fl_mono (show v + δ ≤ v + u by linarith)
    have k2 := (abs_le.1 (fl_err (v + δ))).1
    have k3 : |v + δ| / 2 ^ 24 ≤ (B + δ) / 2 ^ 24 := by
      refine div_le_div_of_nonneg_right ((abs_add_le _ _).trans ?_) (by norm_num)
      rw [abs_of_pos hδ]
      linarith
    linarith
  rw [clamp_eq hlt]
  refine le_trans (le_min ?_ (min_le_left _ _)) (le_max_right _ _)
  refine le_trans ?_ hfl
  rcases min_le_iff.1 h with h | h
  · exact (min_le_left _ _).trans (by linarith)
  · exact (min_le_right _ _).trans (by linarith)

theorem inTurn_err {lo hi B : ℚ} (hlo : lo ≤ -B) (hhi : B ≤ hi) (hB : 0 ≤ B) (us : List ℚ) : ∀ (v s : ℚ) (k : ℕ), |v - s| ≤ k * (B / 2 ^ 24) →
    |s| + (us.map fun u => |u|).sum + (k + us.length : ℕ) * (B / 2 ^ 24) ≤ B → |addInTurn lo hi v us - (s + us.sum)| ≤ (k + us.length : ℕ) * (B / 2 ^ 24) := by
  have hb : 0 ≤ B / 2 ^ 24 := by positivity
  induction us with
  | nil =>
    intro v s k h1 _
    simpa [addInTurn] using h1
  | cons u us ih =>
    intro v s k h1 h2
    simp only [List.map_cons, List.sum_cons, List.length_cons] at h2 ⊢
    have h3 : 0 ≤ (us.map fun u => |u|).sum := List.sum_nonneg (by simp)
    have hn : 0 ≤ (us.length : ℚ) * (B / 2 ^ 24) := by positivity
    push_cast at h2
    by_cases hu : u = 0
    · subst hu
      rw [show addInTurn lo hi v (0 :: us) = addInTurn lo hi v us by simp [addInTurn]]
      have := ih v s k h1 (by push_cast; rw [abs_zero] at h2; nlinarith)
      rw [zero_add]
      push_cast at this ⊢
      nlinarith
    · rw [show addInTurn lo hi v (u :: us) = addInTurn lo hi (clamp lo hi (fl (v + u))) us by simp [addInTurn, hu]]
      have a1 : |v + u - (s + u)| ≤ k * (B / 2 ^ 24) := by rw [show v + u - (s + u) = v - s by ring]; exact h1
      have a2 : |s + u| ≤ |s| + |u| := abs_add_le _ _
      have a3 : |v + u| ≤ |s + u| + k * (B / 2 ^ 24) := by
        have := abs_add_le (v + u - (s + u)) (s + u)
        rw [sub_add_cancel] at this
        linarith
      have a4 : |fl (v + u) - (v + u)| ≤ B / 2 ^ 24 := (fl_err _).trans (div_le_div_of_nonneg_right (by nlinarith) (by norm_num))
      have a5 : |fl (v + u) - (s + u)| ≤ (k + 1) * (B / 2 ^ 24) := by
        have := abs_add_le (fl (v + u) - (v + u)) (v + u - (s + u))
        rw [sub_add_sub_cancel] at this
        linarith
      have a6 : |fl (v + u)| ≤ B := by
        have := abs_add_le (fl (v + u) - (s + u)) (s + u)
        rw [sub_add_cancel] at this
        nlinarith
      have a7 : clamp lo hi (fl (v + u)) = fl (v + u) := by
        obtain ⟨b1, b2⟩ := abs_le.1 a6
        rw [clamp_eq (by linarith), min_eq_left (by linarith), max_eq_right (by linarith)]
      rw [a7]
      have := ih (fl (v + u)) (s + u) (k + 1) (by push_cast; exact a5) (by push_cast; linarith)
      push_cast at this ⊢
      rw [← add_assoc, show (k : ℚ) + (us.length + 1) = k + 1 + us.length by ring]
      exact this

theorem updates_sums {e d : Integration → ℝ} {change : Integration → ℚ} {history : List Integration} (h : ∀ x ∈ history, |(change x : ℝ) - e x| ≤ d x) :
    |(((history.map change).sum : ℚ) : ℝ) - (history.map e).sum| ≤ (history.map d).sum ∧
      ((((history.map change).map fun u => |u|).sum : ℚ) : ℝ) ≤ (history.map fun x => |e x| + d x).sum := by
  induction history with
  | nil => simp
  | cons x history ih =>
    have h1 := h x (List.mem_cons_self ..)
    have ih := ih fun y hy => h y (List.mem_cons_of_mem _ hy)
    simp only [List.map_cons, List.sum_cons, Rat.cast_add, Rat.cast_abs]
    refine ⟨?_, ?_⟩
    · have := abs_add_le ((change x : ℝ) - e x) ((((history.map change).sum : ℚ) : ℝ) - (history.map e).sum)
      rw [show (change x : ℝ) - e x + ((((history.map change).sum : ℚ) : ℝ) - (history.map e).sum) =
        (change x : ℝ) + (((history.map change).sum : ℚ) : ℝ) - (e x + (history.map e).sum) by ring] at this
      linarith [ih.1]
    · have := abs_add_le ((change x : ℝ) - e x) (e x)
      rw [sub_add_cancel] at this
      linarith [ih.2]

/-- The numbers that the measurements of a history add to a cell, whatever the map and the order. -/
theorem history_updates {logF sqrtF : ℚ → ℚ} (hl : IsLogSingle logF) (hs : IsSqrtSingle sqrtF) (hsf : ∀ x, IsFloat (sqrtF x)) {cfg : MapBaseConfig}
    (hw : 0 < cfg.minCellWidth) {j : Index 3} {M N : ℚ} {e d : Integration → ℝ} {history : List Integration}
    (hf : ∀ x ∈ history, (Seen cfg.minCellWidth M N j (fun exact => exact = e x) x ∧ integrationError M N x ≤ d x) ∨ (Unseen cfg.minCellWidth M N j x ∧ e x = 0 ∧ 0 ≤ d x)) :
    ∃ change : Integration → ℚ, (∀ x ∈ history, |(change x : ℝ) - e x| ≤ d x) ∧ ∀ (l : List Integration), (∀ x ∈ l, x ∈ history) → ∀ m : HashedBlocks, m.Wf → m.config = cfg →
      ∃ m', integrateAll logF sqrtF m l = some m' ∧ m'.getCellValue j = addInTurn cfg.minLogOdds cfg.maxLogOdds (m.getCellValue j) (l.map change) := by
  have key : ∀ x, ∃ u : ℚ, x ∈ history → |(u : ℝ) - e x| ≤ d x ∧ ∀ m : HashedBlocks, m.Wf → m.config = cfg → ∃ m', Integration.updateMap logF sqrtF m x = some m' ∧ m'.Wf ∧ m'.config = cfg ∧
      m'.getCellValue j = if u = 0 then m.getCellValue j else clamp cfg.minLogOdds cfg.maxLogOdds (fl (m.getCellValue j + u)) := by
    intro x
    by_cases hx : x ∈ history
    · rcases hf x hx with ⟨h, hd⟩ | ⟨h, he, hd⟩
      · obtain ⟨u, e', h1, h2, h3⟩ := seen_uniform hl hs hsf hw h
        rw [h1] at h2
        exact ⟨u, fun _ => ⟨h2.trans hd, h3⟩⟩
      · refine ⟨0, fun _ => ⟨by rw [he]; simpa using hd, fun m hm hc => ?_⟩⟩
        subst hc
        obtain ⟨m', k1, k2, k3, k4⟩ := unseen_step (logF := logF) (sqrtF := sqrtF) hl hs hsf hm hw h
        exact ⟨m', k1, k2, k3, by rw [if_pos rfl]; exact k4⟩
    · exact ⟨0, fun h => absurd h hx⟩
  choose change hch using key
  refine ⟨change, fun x hx => (hch x hx).1, fun l => ?_⟩
  induction l with
  | nil => exact fun _ m _ _ => ⟨m, rfl, rfl⟩
  | cons x l ih =>
    intro hl' m hm hc
    obtain ⟨m2, g1, g2, g3, g4⟩ := (hch x (hl' x (List.mem_cons_self ..))).2 m hm hc
    obtain ⟨m3, k1, k2⟩ := ih (fun y hy => hl' y (List.mem_cons_of_mem _ hy)) m2 g2 g3
    refine ⟨m3, ?_, ?_⟩
    · unfold integrateAll; rw [List.foldlM_cons, g1]; exact k1
    · rw [k2, g4]; rfl

theorem no_bound {e d : Integration → ℝ} {change : Integration → ℚ} {history : List Integration} (h : ∀ x ∈ history, |(change x : ℝ) - e x| ≤ d x) {lo hi B v : ℚ} (hB : 0 ≤ B)
    (hlo : lo ≤ -B) (hhi : B ≤ hi) (hsum : |(v : ℝ)| + (history.map fun x => |e x| + d x).sum + history.length * (B / 2 ^ 24) ≤ B) :
    |(addInTurn lo hi v (history.map change) : ℝ) - (v + ((history.map change).sum : ℚ))| ≤ history.length * (B / 2 ^ 24) := by
  obtain ⟨-, s2⟩ := updates_sums h
  have s3 : |v| + ((history.map change).map fun u => |u|).sum + (0 + (history.map change).length : ℕ) * (B / 2 ^ 24) ≤ B := by
    have : ((|v| + ((history.map change).map fun u => |u|).sum + (0 + (history.map change).length : ℕ) * (B / 2 ^ 24) : ℚ) : ℝ) ≤ (B : ℚ) := by
      rw [List.length_map, zero_add]
      simp only [Rat.cast_add, Rat.cast_abs, Rat.cast_mul, Rat.cast_natCast, Rat.cast_div, Rat.cast_pow, Rat.cast_ofNat]
      linarith
    exact_mod_cast this
  have s4 := inTurn_err hlo hhi hB (history.map change) v v 0 (by simp) s3
  have := (Rat.cast_le (K := ℝ)).2 s4
  rw [List.length_map, zero_add] at this
  simpa only [Rat.cast_add, Rat.cast_sub, Rat.cast_abs, Rat.cast_mul, Rat.cast_natCast, Rat.cast_div, Rat.cast_pow, Rat.cast_ofNat] using this

theorem integrate_append {logF sqrtF : ℚ → ℚ} {m m1 m2 : HashedBlocks} {l l' : List Integration} (h : integrateAll logF sqrtF m l = some m1)
    (h' : integrateAll logF sqrtF m1 l' = some m2) : integrateAll logF sqrtF m (l ++ l') = some m2 := by
  unfold integrateAll at h h' ⊢
  rw [List.foldlM_append, h]
  exact h'

theorem integrate_cons {logF sqrtF : ℚ → ℚ} {m m1 m2 : HashedBlocks} {x : Integration} {l : List Integration} (h : Integration.updateMap logF sqrtF m x = some m1)
    (h' : integrateAll logF sqrtF m1 l = some m2) : integrateAll logF sqrtF m (x :: l) = some m2 := by
  unfold integrateAll at h' ⊢
  rw [List.foldlM_cons, h]
  exact h'

end SingleSensors
open Single SingleSensors

/-- **All histories.** In every history of depth images and scans, each of which sees a cell (with exact updates that satisfy `P`) or does not see it, there is one number per
measurement: the exact update up to the error bound, or zero if it does not see the cell (or for thresholding and pruning). The value of the cell is the result of adding these numbers one after the other, each with one
rounding and within the bounds. -/
theorem C101_history_partial (logF sqrtF : ℚ → ℚ) (hl : IsLogSingle logF) (hs : IsSqrtSingle sqrtF) (hsf : ∀ x, IsFloat (sqrtF x)) (m : HashedBlocks) (hm : m.Wf)
    (hw : 0 < m.config.minCellWidth) (j : Index 3) (M N : ℚ) (P : Integration → ℝ → Prop) (history : List Integration)
    (hf : ∀ x ∈ history, Seen m.config.minCellWidth M N j (P x) x ∨ Unseen m.config.minCellWidth M N j x) :
    ∃ (m' : HashedBlocks) (updates : List ℚ), integrateAll logF sqrtF m history = some m' ∧ m'.config = m.config ∧
      List.Forall₂ (fun x (u : ℚ) => (∃ exact : ℝ, Seen m.config.minCellWidth M N j (P x) x ∧ P x exact ∧ |(u : ℝ) - exact| ≤ integrationError M N x) ∨
        (Unseen m.config.minCellWidth M N j x ∧ u = 0)) history updates ∧
      m'.getCellValue j = addInTurn m.config.minLogOdds m.config.maxLogOdds (m.getCellValue j) updates := by
  induction history generalizing m with
  | nil => exact ⟨m, [], rfl, rfl, .nil, rfl⟩
  | cons x history ih =>
    have hf' := fun y hy => hf y (List.mem_cons_of_mem _ hy)
    rcases hf x (List.mem_cons_self ..) with hx | hx
    · obtain ⟨m2, u, e, g1, g2, g3, g4, g5, g6⟩ := seen_step hl hs hsf hm hw hx
      obtain ⟨m3, us, k1, k2, k3, k4⟩ := ih m2 g2 (by rw [g3]; exact hw) (by rw [g3]; exact hf')
      rw [g3] at k2 k3 k4
      refine ⟨m3, u :: us, ?_, k2, .cons (Or.inl ⟨e, hx, g4, g5⟩) k3, ?_⟩
      · unfold integrateAll; rw [List.foldlM_cons, g1]; exact k1
      · rw [k4, g6]; rfl
    · obtain ⟨m2, g1, g2, g3, g4⟩ := unseen_step (logF := logF) (sqrtF := sqrtF) hl hs hsf hm hw hx
      obtain ⟨m3, us, k1, k2, k3, k4⟩ := ih m2 g2 (by rw [g3]; exact hw) (by rw [g3]; exact hf')
      rw [g3] at k2 k3 k4
      refine ⟨m3, 0 :: us, ?_, k2, .cons (Or.inr ⟨hx, rfl⟩) k3, ?_⟩
      · unfold integrateAll; rw [List.foldlM_cons, g1]; exact k1
      · rw [k4, g4]; rfl

/-- **Sums.** If no bound can be reached, the value of a cell after a history is its value before and the sum of the exact updates `e` by the measurements that see it, up to the sum of
their errors `d` and one rounding error per step. -/
theorem C101_sum_partial (logF sqrtF : ℚ → ℚ) (hl : IsLogSingle logF) (hs : IsSqrtSingle sqrtF) (hsf : ∀ x, IsFloat (sqrtF x)) (m : HashedBlocks) (hm : m.Wf)
    (hw : 0 < m.config.minCellWidth) (j : Index 3) (M N : ℚ) (e d : Integration → ℝ) (history : List Integration)
    (hf : ∀ x ∈ history, (Seen m.config.minCellWidth M N j (fun exact => exact = e x) x ∧ integrationError M N x ≤ d x) ∨ (Unseen m.config.minCellWidth M N j x ∧ e x = 0 ∧ 0 ≤ d x))
    (B : ℚ) (hB : 0 ≤ B) (hlo : m.config.minLogOdds ≤ -B) (hhi : B ≤ m.config.maxLogOdds)
    (hsum : |(m.getCellValue j : ℝ)| + (history.map fun x => |e x| + d x).sum + history.length * (B / 2 ^ 24) ≤ B) :
    ∃ m', integrateAll logF sqrtF m history = some m' ∧
      |(m'.getCellValue j : ℝ) - (m.getCellValue j + (history.map e).sum)| ≤ (history.map d).sum + history.length * (B / 2 ^ 24) := by
  obtain ⟨change, h2, h3⟩ := history_updates hl hs hsf hw hf
  obtain ⟨m', k1, k2⟩ := h3 history (fun _ h => h) m hm rfl
  have s4 := no_bound h2 hB hlo hhi hsum
  rw [← k2] at s4
  refine ⟨m', k1, ?_⟩
  have := abs_add_le ((m'.getCellValue j : ℝ) - (m.getCellValue j + ((history.map change).sum : ℚ))) (((history.map change).sum : ℚ) - (history.map e).sum)
  rw [show (m'.getCellValue j : ℝ) - (m.getCellValue j + ((history.map change).sum : ℚ)) + (((history.map change).sum : ℚ) - (history.map e).sum) =
    m'.getCellValue j - (m.getCellValue j + (history.map e).sum) by ring] at this
  linarith [(updates_sums h2).1]

/-- **The order does not matter.** If no bound can be reached, integrating the same measurements in another order changes the value of a cell by at most two rounding
errors per step, however large the errors of the measurements are. -/
theorem C101_order_partial (logF sqrtF : ℚ → ℚ) (hl : IsLogSingle logF) (hs : IsSqrtSingle sqrtF) (hsf : ∀ x, IsFloat (sqrtF x)) (m : HashedBlocks) (hm : m.Wf)
    (hw : 0 < m.config.minCellWidth) (j : Index 3) (M N : ℚ) (e d : Integration → ℝ) (history history' : List Integration) (hp : history.Perm history')
    (hf : ∀ x ∈ history, (Seen m.config.minCellWidth M N j (fun exact => exact = e x) x ∧ integrationError M N x ≤ d x) ∨ (Unseen m.config.minCellWidth M N j x ∧ e x = 0 ∧ 0 ≤ d x))
    (B : ℚ) (hB : 0 ≤ B) (hlo : m.config.minLogOdds ≤ -B) (hhi : B ≤ m.config.maxLogOdds)
    (hsum : |(m.getCellValue j : ℝ)| + (history.map fun x => |e x| + d x).sum + history.length * (B / 2 ^ 24) ≤ B) :
    ∃ m1 m2, integrateAll logF sqrtF m history = some m1 ∧ integrateAll logF sqrtF m history' = some m2 ∧
      |(m1.getCellValue j : ℝ) - m2.getCellValue j| ≤ 2 * (history.length * (B / 2 ^ 24)) := by
  obtain ⟨change, h2, h3⟩ := history_updates hl hs hsf hw hf
  obtain ⟨m1, g1, g2⟩ := h3 history (fun _ h => h) m hm rfl
  obtain ⟨m2, k1, k2⟩ := h3 history' (fun _ h => hp.mem_iff.2 h) m hm rfl
  have s1 := no_bound h2 hB hlo hhi hsum
  have s2 := no_bound (history := history') (fun x hx => h2 x (hp.mem_iff.2 hx)) hB hlo hhi (by rw [← (hp.map _).sum_eq, ← hp.length_eq]; exact hsum)
  rw [← g2] at s1
  rw [← k2, ← (hp.map change).sum_eq, ← hp.length_eq] at s2
  refine ⟨m1, m2, g1, k1, ?_⟩
  have b1 := abs_le.1 s1
  have b2 := abs_le.1 s2
  exact abs_le.2 ⟨by linarith [b1.1, b2.2], by linarith [b1.2, b2.1]⟩

/-- **Clearing.** In every history of depth images and scans, by any number of cameras and lidars and in any order, the measurements that see a cell with exact updates of at most
`-δ` (and the error bound) each lower its value by `δ` less one rounding error, down to the minimum; those that do not see it, thresholding and pruning change nothing. -/
theorem C101_cleared_partial (logF sqrtF : ℚ → ℚ) (hl : IsLogSingle logF) (hs : IsSqrtSingle sqrtF) (hsf : ∀ x, IsFloat (sqrtF x)) (m : HashedBlocks) (hm : m.Wf)
    (hc : m.config.isValid = true) (B : ℚ) (hlo : |m.config.minLogOdds| ≤ B) (hhi : |m.config.maxLogOdds| ≤ B) (j : Index 3) (hv : |m.getCellValue j| ≤ B) (M N δ : ℚ) (hδ : 0 < δ)
    (hround : (B + δ) / 2 ^ 24 ≤ δ) (history : List Integration) (n : ℕ) (hf : Sightings m.config.minCellWidth M N j (fun error exact => exact ≤ -(δ + error)) history n) :
    ∃ m', integrateAll logF sqrtF m history = some m' ∧ m'.Wf ∧ m'.config = m.config ∧ (n = 0 → m'.getCellValue j = m.getCellValue j) ∧
      (n ≠ 0 → m.config.minLogOdds ≤ m'.getCellValue j) ∧ m'.getCellValue j ≤ max m.config.minLogOdds (m.getCellValue j - n * (δ - (B + δ) / 2 ^ 24)) := by
  simp only [MapBaseConfig.isValid, Bool.and_eq_true, decide_eq_true_eq] at hc
  have hlt : m.config.minLogOdds ≤ m.config.maxLogOdds := hc.2.le
  have key : ∀ (m1 : HashedBlocks) (a : ℚ), m1.Wf → m1.config = m.config → |m1.getCellValue j| ≤ B → m1.getCellValue j ≤ max m.config.minLogOdds a →
      ∃ m', integrateAll logF sqrtF m1 history = some m' ∧ m'.Wf ∧ m'.config = m.config ∧ (n = 0 → m'.getCellValue j = m1.getCellValue j) ∧
        (n ≠ 0 ∨ m.config.minLogOdds ≤ m1.getCellValue j → m.config.minLogOdds ≤ m'.getCellValue j) ∧
        m'.getCellValue j ≤ max m.config.minLogOdds (a - n * (δ - (B + δ) / 2 ^ 24)) := by
    induction hf with
    | none =>
      intro m1 a h1 h2 _ h4
      exact ⟨m1, rfl, h1, h2, fun _ => rfl, fun h => by simpa using h, by simpa using h4⟩
    | seen hx _ ih =>
      intro m1 a h1 h2 h3 h4
      rw [← h2] at hx
      obtain ⟨m2, u, e, g1, g2, g3, g4, g5, g6⟩ := seen_step hl hs hsf h1 (by rw [h2]; exact hc.1) hx
      have hu : u ≤ -δ := by
        have := abs_le.1 g5
        have h6 : (u : ℝ) ≤ ((-δ : ℚ) : ℝ) := by push_cast; linarith [this.2]
        exact_mod_cast h6
      rw [if_neg (by linarith), h2] at g6
      obtain ⟨b1, b2, -⟩ := within hlt hlo hhi (fl (m1.getCellValue j + u))
      have hstep := lower_step hlt h3 hδ hu h4 (by linarith : 0 ≤ δ - (B + δ) / 2 ^ 24)
      rw [← g6] at b1 b2 hstep
      obtain ⟨m3, k1, k2, k3, -, k5, k6⟩ := ih m2 _ g2 (g3.trans h2) b1 hstep
      refine ⟨m3, ?_, k2, k3, fun h => absurd h (Nat.succ_ne_zero _), fun _ => k5 (Or.inr b2), k6.trans (le_of_eq ?_)⟩
      · unfold integrateAll; rw [List.foldlM_cons, g1]; exact k1
      · push_cast; ring_nf
    | unseen hx _ ih =>
      intro m1 a h1 h2 h3 h4
      rw [← h2] at hx
      obtain ⟨m2, g1, g2, g3, g4⟩ := unseen_step (logF := logF) (sqrtF := sqrtF) hl hs hsf h1 (by rw [h2]; exact hc.1) hx
      rw [← g4] at h3 h4
      obtain ⟨m3, k1, k2, k3, k4, k5, k6⟩ := ih m2 a g2 (g3.trans h2) h3 h4
      refine ⟨m3, ?_, k2, k3, fun h => (k4 h).trans g4, fun h => k5 (by rw [g4]; exact h), k6⟩
      unfold integrateAll; rw [List.foldlM_cons, g1]; exact k1
  obtain ⟨m', h1, h2, h3, h4, h5, h6⟩ := key m (m.getCellValue j) hm rfl hv (le_max_right _ _)
  exact ⟨m', h1, h2, h3, h4, fun h => h5 (Or.inl h), h6⟩

/-- **Appearing.** Likewise the measurements that see a cell with exact updates of at least `δ` (and the error bound) each raise its value by `δ` less one rounding error, up to the
maximum. -/
theorem C101_appears_partial (logF sqrtF : ℚ → ℚ) (hl : IsLogSingle logF) (hs : IsSqrtSingle sqrtF) (hsf : ∀ x, IsFloat (sqrtF x)) (m : HashedBlocks) (hm : m.Wf)
    (hc : m.config.isValid = true) (B : ℚ) (hlo : |m.config.minLogOdds| ≤ B) (hhi : |m.config.maxLogOdds| ≤ B) (j : Index 3) (hv : |m.getCellValue j| ≤ B) (M N δ : ℚ) (hδ : 0 < δ)
    (hround : (B + δ) / 2 ^ 24 ≤ δ) (history : List Integration) (n : ℕ) (hf : Sightings m.config.minCellWidth M N j (fun error exact => δ + error ≤ exact) history n) :
    ∃ m', integrateAll logF sqrtF m history = some m' ∧ m'.Wf ∧ m'.config = m.config ∧ (n = 0 → m'.getCellValue j = m.getCellValue j) ∧
      (n ≠ 0 → m'.getCellValue j ≤ m.config.maxLogOdds) ∧ min m.config.maxLogOdds (m.getCellValue j + n * (δ - (B + δ) / 2 ^ 24)) ≤ m'.getCellValue j := by
  simp only [MapBaseConfig.isValid, Bool.and_eq_true, decide_eq_true_eq] at hc
  have hlt : m.config.minLogOdds ≤ m.config.maxLogOdds := hc.2.le
  have key : ∀ (m1 : HashedBlocks) (a : ℚ), m1.Wf → m1.config = m.config → |m1.getCellValue j| ≤ B → min m.config.maxLogOdds a ≤ m1.getCellValue j →
      ∃ m', integrateAll logF sqrtF m1 history = some m' ∧ m'.Wf ∧ m'.config = m.config ∧ (n = 0 → m'.getCellValue j = m1.getCellValue j) ∧
        (n ≠ 0 ∨ m1.getCellValue j ≤ m.config.maxLogOdds → m'.getCellValue j ≤ m.config.maxLogOdds) ∧
        min m.config.maxLogOdds (a + n * (δ - (B + δ) / 2 ^ 24)) ≤ m'.getCellValue j := by
    induction hf with
    | none =>
      intro m1 a h1 h2 _ h4
      exact ⟨m1, rfl, h1, h2, fun _ => rfl, fun h => by simpa using h, by simpa using h4⟩
    | seen hx _ ih =>
      intro m1 a h1 h2 h3 h4
      rw [← h2] at hx
      obtain ⟨m2, u, e, g1, g2, g3, g4, g5, g6⟩ := seen_step hl hs hsf h1 (by rw [h2]; exact hc.1) hx
      have hu : δ ≤ u := by
        have := abs_le.1 g5
        have h6 : (δ : ℝ) ≤ (u : ℝ) := by linarith [this.1]
        exact_mod_cast h6
      rw [if_neg (by linarith), h2] at g6
      obtain ⟨b1, -, b2⟩ := within hlt hlo hhi (fl (m1.getCellValue j + u))
      have hstep := raise_step hlt h3 hδ hu h4 (by linarith : 0 ≤ δ - (B + δ) / 2 ^ 24)
      rw [← g6] at b1 b2 hstep
      obtain ⟨m3, k1, k2, k3, -, k5, k6⟩ := ih m2 _ g2 (g3.trans h2) b1 hstep
      refine ⟨m3, ?_, k2, k3, fun h => absurd h (Nat.succ_ne_zero _), fun _ => k5 (Or.inr b2), (le_of_eq ?_).trans k6⟩
      · unfold integrateAll; rw [List.foldlM_cons, g1]; exact k1
      · push_cast; ring_nf
    | unseen hx _ ih =>
      intro m1 a h1 h2 h3 h4
      rw [← h2] at hx
      obtain ⟨m2, g1, g2, g3, g4⟩ := unseen_step (logF := logF) (sqrtF := sqrtF) hl hs hsf h1 (by rw [h2]; exact hc.1) hx
      rw [← g4] at h3 h4
      obtain ⟨m3, k1, k2, k3, k4, k5, k6⟩ := ih m2 a g2 (g3.trans h2) h3 h4
      refine ⟨m3, ?_, k2, k3, fun h => (k4 h).trans g4, fun h => k5 (by rw [g4]; exact h), k6⟩
      unfold integrateAll; rw [List.foldlM_cons, g1]; exact k1
  obtain ⟨m', h1, h2, h3, h4, h5, h6⟩ := key m (m.getCellValue j) hm rfl hv (min_le_right _ _)
  exact ⟨m', h1, h2, h3, h4, fun h => h5 (Or.inl h), h6⟩

/-- **A moving obstacle.** If a cell is seen as occupied often enough and then as free often enough, by whichever sensors, it has the maximum exactly in between and the minimum
exactly at the end. -/
theorem C101_moved_partial (logF sqrtF : ℚ → ℚ) (hl : IsLogSingle logF) (hs : IsSqrtSingle sqrtF) (hsf : ∀ x, IsFloat (sqrtF x)) (m : HashedBlocks) (hm : m.Wf)
    (hc : m.config.isValid = true) (B : ℚ) (hlo : |m.config.minLogOdds| ≤ B) (hhi : |m.config.maxLogOdds| ≤ B) (j : Index 3) (hv : |m.getCellValue j| ≤ B) (M N δ : ℚ) (hδ : 0 < δ)
    (hround : (B + δ) / 2 ^ 24 ≤ δ) (present gone : List Integration) (p g : ℕ) (hp : Sightings m.config.minCellWidth M N j (fun error exact => δ + error ≤ exact) present p)
    (hg : Sightings m.config.minCellWidth M N j (fun error exact => exact ≤ -(δ + error)) gone g) (hp0 : p ≠ 0) (hg0 : g ≠ 0)
    (hpn : m.config.maxLogOdds - m.getCellValue j ≤ p * (δ - (B + δ) / 2 ^ 24)) (hgn : m.config.maxLogOdds - m.config.minLogOdds ≤ g * (δ - (B + δ) / 2 ^ 24)) :
    ∃ m1 m2, integrateAll logF sqrtF m present = some m1 ∧ m1.getCellValue j = m.config.maxLogOdds ∧
      integrateAll logF sqrtF m (present ++ gone) = some m2 ∧ m2.getCellValue j = m.config.minLogOdds := by
  obtain ⟨m1, h1, h2, h3, -, h5, h6⟩ := C101_appears_partial logF sqrtF hl hs hsf m hm hc B hlo hhi j hv M N δ hδ hround present p hp
  have e1 : m1.getCellValue j = m.config.maxLogOdds := le_antisymm (h5 hp0) ((le_min le_rfl (by linarith)).trans h6)
  rw [← h3] at hg
  obtain ⟨m2, k1, -, -, -, k5, k6⟩ := C101_cleared_partial logF sqrtF hl hs hsf m1 h2 (by rw [h3]; exact hc) B (by rw [h3]; exact hlo) (by rw [h3]; exact hhi) j (by rw [e1]; exact hhi)
    M N δ hδ hround gone g hg
  rw [h3] at k5 k6
  refine ⟨m1, m2, h1, e1, ?_, le_antisymm (k6.trans (max_le le_rfl (by rw [e1]; linarith))) (k5 hg0)⟩
  unfold integrateAll at h1 k1 ⊢
  rw [List.foldlM_append, h1]
  exact k1

/-! ## Example -/

namespace SingleSensors
open SingleCell

/-- The camera of the example of C97, looking along the first axis of the map. -/
def sideFrame : Frame := ⟨{ SingleCell.exampleView with pose := ⟨⟨1 / 2, -1 / 2, -1 / 2, -1 / 2⟩, fun _ => 0⟩ }, ![0, 0, -4], ![40, 4, 4]⟩

theorem sideFrame_cell : exactCell sideFrame.view (1 / 8) ![31, 2, -1] = exactCell SingleClearing.clearFrame.view (1 / 8) ![2, -1, 31] := by
  funext k
  revert k
  decide +kernel

theorem sideFrame_usable : SingleClearing.Usable sideFrame where
  scaled := SingleClearing.clearFrame_usable.scaled
  focal := SingleClearing.clearFrame_usable.focal
  unit := by norm_num [sideFrame, SinglePoses.normSq]
  image := SingleClearing.clearFrame_usable.image
  box := by decide

theorem sideFrame_sees : SingleNeighborsCell.SeesAll sideFrame (1 / 8) 5 0 ![31, 2, -1] fun exact => exact ≤ -((3 / 2 : ℚ) + SingleNeighborsCell.sumError sideFrame.view 5 0) := by
  have h := SingleNeighborsCell.clearFrame_seesAll
  refine ⟨by decide, by decide, ?_, ?_, ?_, ?_, ?_, ?_⟩
  · intro k; fin_cases k <;> norm_num [abs_of_nonneg, abs_of_neg]
  · intro k; norm_num [sideFrame]
  · rw [sideFrame_cell]; exact h.near
  · rw [sideFrame_cell]; exact h.far
  · rw [sideFrame_cell]; exact h.front
  · intro lo hi e h1 h2
    rw [sideFrame_cell] at h2
    refine h.pixels lo hi e ?_ h2
    unfold SingleNeighborsCell.Surrounds SingleNeighborsCell.exactProjection SingleNeighborsCell.imageError at h1 ⊢
    rw [sideFrame_cell] at h1
    exact h1

/-- The view of the example of C97 with the wall moved from five to eight metres. -/
def openFrame : Frame := ⟨{ exampleView with image := ⟨640, 480, fun _ _ => 8⟩ }, ![0, -4, 0], ![4, 4, 44]⟩

theorem openFrame_image (i : Idx2) : openFrame.view.image.at i = (SingleClearing.wallFrame.view.image.at i).map fun _ => 8 := by
  unfold Image.at
  have e : openFrame.view.image.inBounds i = SingleClearing.wallFrame.view.image.inBounds i := rfl
  rw [e]
  split <;> rfl

theorem openFrame_usable : SingleClearing.Usable openFrame where
  scaled := SingleClearing.wallFrame_usable.scaled
  focal := SingleClearing.wallFrame_usable.focal
  unit := SingleClearing.wallFrame_usable.unit
  image := by
    intro i m h
    rw [openFrame_image] at h
    obtain ⟨_, -, rfl⟩ := Option.map_eq_some_iff.1 h
    exact ⟨1, 3, by norm_num, by norm_num⟩
  box := by decide

theorem openFrame_exact : SingleNeighborsCell.SeesAll openFrame (1 / 8) 6 0 ![2, -1, 41] fun exact => exact = 4 * Real.log (3 / 5) := by
  have hs := SingleClearing.wallFrame_sees_wall
  refine ⟨hs.inBox, hs.small, hs.cell, hs.position, hs.near, hs.far, hs.front, ?_⟩
  intro lo hi exact hsur hsum
  have e2 : exactCell openFrame.view (1 / 8) ![2, -1, 41] 2 = 83 / 16 := SingleClearing.wallFrame_wall 2
  rw [C99_in_front openFrame.view.ray openFrame_usable.scaled openFrame.view.image _ lo hi (fun i hi' => ⟨8, by
    rw [openFrame_image, SingleNeighborsCell.wallFrame_surrounds hsur i hi']; rfl, by rw [e2]; norm_num [openFrame, exampleView]⟩)] at hsum
  obtain rfl := Option.some.inj hsum
  have el : (1 - ((openFrame.view.ray.scalingFree : ℚ) : ℝ)) / (1 + (openFrame.view.ray.scalingFree : ℚ)) = 3 / 5 := by norm_num [openFrame, exampleView]
  rw [el]

theorem openFrame_error : SingleNeighborsCell.sumError openFrame.view 6 0 ≤ 1 / 40 := by
  have hp : positionError 6 0 = 438 / 2 ^ 24 := by norm_num [positionError]
  have hk : Single.kEpsilon ≤ 1 / 1000 := by decide +kernel
  have hkR : ((Single.kEpsilon : ℚ) : ℝ) ≤ 1 / 1000 := by
    have := (Rat.cast_le (K := ℝ)).2 hk
    push_cast at this
    exact this
  unfold SingleNeighborsCell.sumError
  rw [hp]
  norm_num [openFrame, exampleView] at hkR ⊢
  linarith

theorem openFrame_sees : SingleNeighborsCell.SeesAll openFrame (1 / 8) 6 0 ![2, -1, 41] fun exact => exact ≤ -((3 / 2 : ℚ) + SingleNeighborsCell.sumError openFrame.view 6 0) := by
  have h := openFrame_exact
  refine ⟨h.inBox, h.small, h.cell, h.position, h.near, h.far, h.front, fun lo hi exact h1 h2 => ?_⟩
  rw [h.pixels lo hi exact h1 h2]
  have hlog := Real.log_le_sub_one_of_pos (show (0 : ℝ) < 3 / 5 by norm_num)
  have := openFrame_error
  push_cast
  linarith

end SingleSensors
open SingleMeasurement SingleCamera SingleLidar SingleCell SingleClearing SingleLidarCell SingleLidarClearing SingleLidarNeighborsCell

/-- A camera and a lidar take turns, with a camera that does not see the cell and operations on the map in between: a cell at the maximum of 4 has the minimum after six
measurements. -/
example : ∃ m', integrateAll exampleLog roundedSqrt (HashedBlocks.create ⟨1 / 8, -2, 4⟩ 4)
      [.allImage sideFrame, .threshold, .allScan clearScan, .nearestImage clearFrame, .allScan clearScan, .prune, .allImage sideFrame, .allImage sideFrame] = some m' ∧
    m'.getCellValue ![31, 2, -1] = -2 := by
  have hv : (HashedBlocks.create ⟨1 / 8, -2, 4⟩ 4).getCellValue ![31, 2, -1] = 4 := rfl
  have a : Seen (1 / 8) 5 0 ![31, 2, -1] (fun exact => exact ≤ -((3 / 2 : ℚ) + integrationError 5 0 (.allImage sideFrame))) (.allImage sideFrame) := ⟨sideFrame_usable, sideFrame_sees⟩
  have b : Seen (1 / 8) 5 0 ![31, 2, -1] (fun exact => exact ≤ -((3 / 2 : ℚ) + integrationError 5 0 (.allScan clearScan))) (.allScan clearScan) :=
    ⟨clearScan_usableAll, clearScan_seesAll⟩
  have c : Unseen (1 / 8) 5 0 ![31, 2, -1] (.nearestImage clearFrame) := by
    refine ⟨clearFrame_usable, by decide, ?_, ?_, Or.inl ⟨0, Or.inr (by decide)⟩⟩
    · intro k; fin_cases k <;> norm_num [abs_of_nonneg, abs_of_neg]
    · intro k; norm_num [clearFrame, exampleView]
  obtain ⟨m', h1, -, -, -, h5, h6⟩ := C101_cleared_partial exampleLog roundedSqrt exampleLog_ok roundedSqrt_ok.1 roundedSqrt_ok.2 (HashedBlocks.create ⟨1 / 8, -2, 4⟩ 4) List.nodup_nil
    (by decide +kernel) 4 (by norm_num [HashedBlocks.create]) (by norm_num [HashedBlocks.create]) ![31, 2, -1] (by rw [hv]; norm_num) 5 0 (3 / 2) (by norm_num) (by norm_num) _ _
    (.seen a (.unseen (x := .threshold) trivial (.seen b (.unseen c (.seen b (.unseen (x := .prune) trivial (.seen a (.seen a .none))))))))
  refine ⟨m', h1, le_antisymm (h6.trans ?_) (h5 (by decide))⟩
  rw [hv]
  norm_num [HashedBlocks.create]

/-- An obstacle at five metres that is removed after three images: the cell behind its surface has the maximum in between and the minimum after five images more. -/
example : ∃ m1 m2, integrateAll exampleLog roundedSqrt (HashedBlocks.create ⟨1 / 8, -2, 4⟩ 0) (List.replicate 3 (.allImage wallFrame)) = some m1 ∧ m1.getCellValue ![2, -1, 41] = 4 ∧
    integrateAll exampleLog roundedSqrt (HashedBlocks.create ⟨1 / 8, -2, 4⟩ 0) (List.replicate 3 (.allImage wallFrame) ++ List.replicate 5 (.allImage openFrame)) = some m2 ∧
    m2.getCellValue ![2, -1, 41] = -2 := by
  have hv : (HashedBlocks.create ⟨1 / 8, -2, 4⟩ 0).getCellValue ![2, -1, 41] = 0 := rfl
  have a : Seen (1 / 8) 6 0 ![2, -1, 41] (fun exact => (3 / 2 : ℚ) + integrationError 6 0 (.allImage wallFrame) ≤ exact) (.allImage wallFrame) :=
    ⟨wallFrame_usable, SingleNeighborsCell.wallFrame_seesAll⟩
  have b : Seen (1 / 8) 6 0 ![2, -1, 41] (fun exact => exact ≤ -((3 / 2 : ℚ) + integrationError 6 0 (.allImage openFrame))) (.allImage openFrame) := ⟨openFrame_usable, openFrame_sees⟩
  exact C101_moved_partial exampleLog roundedSqrt exampleLog_ok roundedSqrt_ok.1 roundedSqrt_ok.2 (HashedBlocks.create ⟨1 / 8, -2, 4⟩ 0) List.nodup_nil
    (by decide +kernel) 4 (by norm_num [HashedBlocks.create]) (by norm_num [HashedBlocks.create]) ![2, -1, 41] (by rw [hv]; norm_num) 6 0 (3 / 2) (by norm_num) (by norm_num) _ _ 3 5
    (.seen a (.seen a (.seen a .none))) (.seen b (.seen b (.seen b (.seen b (.seen b .none))))) (by decide) (by decide)
    (by rw [hv]; norm_num [HashedBlocks.create]) (by norm_num [HashedBlocks.create])

/-- A history that sees the cell as occupied and as free in alternation. -/
example : ∃ (m' : HashedBlocks) (updates : List ℚ), integrateAll exampleLog roundedSqrt (HashedBlocks.create ⟨1 / 8, -2, 4⟩ 0)
      [.allImage wallFrame, .allImage openFrame, .allImage wallFrame] = some m' ∧ updates.length = 3 ∧ m'.getCellValue ![2, -1, 41] = addInTurn (-2) 4 0 updates := by
  obtain ⟨m', us, h1, -, h3, h4⟩ := C101_history_partial exampleLog roundedSqrt exampleLog_ok roundedSqrt_ok.1 roundedSqrt_ok.2 (HashedBlocks.create ⟨1 / 8, -2, 4⟩ 0) List.nodup_nil
    (by norm_num [HashedBlocks.create]) ![2, -1, 41] 6 0 (fun x exact => (3 / 2 : ℚ) + integrationError 6 0 x ≤ exact ∨ exact ≤ -((3 / 2 : ℚ) + integrationError 6 0 x))
    [.allImage wallFrame, .allImage openFrame, .allImage wallFrame] (by
      have a : Seen (1 / 8) 6 0 ![2, -1, 41] (fun exact => (3 / 2 : ℚ) + integrationError 6 0 (.allImage wallFrame) ≤ exact ∨
          exact ≤ -((3 / 2 : ℚ) + integrationError 6 0 (.allImage wallFrame))) (.allImage wallFrame) := by
        have h := SingleNeighborsCell.wallFrame_seesAll
        exact ⟨wallFrame_usable, ⟨h.inBox, h.small, h.cell, h.position, h.near, h.far, h.front, fun lo hi e h1 h2 => Or.inl (h.pixels lo hi e h1 h2)⟩⟩
      have b : Seen (1 / 8) 6 0 ![2, -1, 41] (fun exact => (3 / 2 : ℚ) + integrationError 6 0 (.allImage openFrame) ≤ exact ∨
          exact ≤ -((3 / 2 : ℚ) + integrationError 6 0 (.allImage openFrame))) (.allImage openFrame) := by
        have h := openFrame_sees
        exact ⟨openFrame_usable, ⟨h.inBox, h.small, h.cell, h.position, h.near, h.far, h.front, fun lo hi e h1 h2 => Or.inr (h.pixels lo hi e h1 h2)⟩⟩
      intro x hx
      simp only [List.mem_cons, List.not_mem_nil, or_false] at hx
      rcases hx with rfl | rfl | rfl
      · exact Or.inl a
      · exact Or.inl b
      · exact Or.inl a)
  exact ⟨m', us, h1, h3.length_eq.symm, h4⟩

/-- Two images of the free space and a pruning, in two orders. -/
example : ∃ m1 m2, integrateAll exampleLog roundedSqrt (HashedBlocks.create ⟨1 / 8, -8, 8⟩ 0) [.allImage openFrame, .prune, .allImage openFrame] = some m1 ∧
    integrateAll exampleLog roundedSqrt (HashedBlocks.create ⟨1 / 8, -8, 8⟩ 0) [.allImage openFrame, .allImage openFrame, .prune] = some m2 ∧
    |(m1.getCellValue ![2, -1, 41] : ℝ) - m2.getCellValue ![2, -1, 41]| ≤ 2 * (3 * (8 / 2 ^ 24)) ∧
    |(m1.getCellValue ![2, -1, 41] : ℝ) - 8 * Real.log (3 / 5)| ≤ 1 / 19 := by
  let e : Integration → ℝ := fun x => match x with | .prune => 0 | _ => 4 * Real.log (3 / 5)
  let d : Integration → ℝ := fun x => match x with | .prune => 0 | _ => 1 / 40
  have hv : (HashedBlocks.create ⟨1 / 8, -8, 8⟩ 0).getCellValue ![2, -1, 41] = 0 := rfl
  have hf : ∀ x ∈ [Integration.allImage openFrame, .prune, .allImage openFrame],
      (Seen (1 / 8) 6 0 ![2, -1, 41] (fun exact => exact = e x) x ∧ integrationError 6 0 x ≤ d x) ∨ (Unseen (1 / 8) 6 0 ![2, -1, 41] x ∧ e x = 0 ∧ 0 ≤ d x) := by
    intro x hx
    simp only [List.mem_cons, List.not_mem_nil, or_false] at hx
    have a : (Seen (1 / 8) 6 0 ![2, -1, 41] (fun exact => exact = e (.allImage openFrame)) (.allImage openFrame) ∧ integrationError 6 0 (.allImage openFrame) ≤ d (.allImage openFrame)) :=
      ⟨⟨openFrame_usable, openFrame_exact⟩, openFrame_error⟩
    rcases hx with rfl | rfl | rfl
    · exact Or.inl a
    · exact Or.inr ⟨trivial, rfl, le_rfl⟩
    · exact Or.inl a
  have hlog := Real.one_sub_inv_le_log_of_pos (show (0 : ℝ) < 3 / 5 by norm_num)
  have hneg := Real.log_neg (show (0 : ℝ) < 3 / 5 by norm_num) (by norm_num)
  norm_num at hlog
  have hsum : |((HashedBlocks.create ⟨1 / 8, -8, 8⟩ 0).getCellValue ![2, -1, 41] : ℝ)| + (([Integration.allImage openFrame, .prune, .allImage openFrame]).map fun x => |e x| + d x).sum +
      ([Integration.allImage openFrame, .prune, .allImage openFrame]).length * (((8 : ℚ) : ℝ) / 2 ^ 24) ≤ ((8 : ℚ) : ℝ) := by
    rw [hv]
    simp only [e, d, List.map_cons, List.map_nil, List.sum_cons, List.sum_nil, List.length_cons, List.length_nil, abs_zero, Rat.cast_zero]
    rw [abs_of_neg (by linarith)]
    norm_num
    linarith
  obtain ⟨m1, m2, h1, h2, h3⟩ := C101_order_partial exampleLog roundedSqrt exampleLog_ok roundedSqrt_ok.1 roundedSqrt_ok.2 (HashedBlocks.create ⟨1 / 8, -8, 8⟩ 0) List.nodup_nil
    (by norm_num [HashedBlocks.create]) ![2, -1, 41] 6 0 e d [.allImage openFrame, .prune, .allImage openFrame] [.allImage openFrame, .allImage openFrame, .prune]
    (List.Perm.cons _ (List.Perm.swap _ _ _)) hf 8 (by norm_num) (by norm_num [HashedBlocks.create]) (by norm_num [HashedBlocks.create]) hsum
  obtain ⟨m3, k1, k2⟩ := C101_sum_partial exampleLog roundedSqrt exampleLog_ok roundedSqrt_ok.1 roundedSqrt_ok.2 (HashedBlocks.create ⟨1 / 8, -8, 8⟩ 0) List.nodup_nil
    (by norm_num [HashedBlocks.create]) ![2, -1, 41] 6 0 e d [.allImage openFrame, .prune, .allImage openFrame] hf 8 (by norm_num) (by norm_num [HashedBlocks.create])
    (by norm_num [HashedBlocks.create]) hsum
  rw [h1] at k1
  obtain rfl := Option.some.inj k1
  refine ⟨m1, m2, h1, h2, by simpa using h3, ?_⟩
  rw [hv] at k2
  simp only [e, d, List.map_cons, List.map_nil, List.sum_cons, List.sum_nil, List.length_cons, List.length_nil, Rat.cast_zero] at k2
  rw [show (0 : ℝ) + (4 * Real.log (3 / 5) + (0 + (4 * Real.log (3 / 5) + 0))) = 8 * Real.log (3 / 5) by ring] at k2
  refine k2.trans ?_
  norm_num

/-- **At the bounds the order matters.** Two depth images, one of which sees a cell as occupied and one as free: if the cell is at the maximum, integrating them in the other order leaves
a value that differs by more than a quarter. -/
theorem C101_order_fails (logF sqrtF : ℚ → ℚ) (hl : IsLogSingle logF) (hs : IsSqrtSingle sqrtF) (hsf : ∀ x, IsFloat (sqrtF x)) :
    ∃ (m : HashedBlocks) (x y : Integration) (j : Index 3) (m1 m2 : HashedBlocks), m.Wf ∧ m.config.isValid = true ∧ m.getCellValue j = m.config.maxLogOdds ∧
      integrateAll logF sqrtF m [x, y] = some m1 ∧ integrateAll logF sqrtF m [y, x] = some m2 ∧ m1.getCellValue j + 1 / 4 < m2.getCellValue j := by
  have a : Seen (1 / 8) 6 0 ![2, -1, 41] (fun exact => (3 / 2 : ℚ) + integrationError 6 0 (.allImage wallFrame) ≤ exact) (.allImage wallFrame) :=
    ⟨wallFrame_usable, SingleNeighborsCell.wallFrame_seesAll⟩
  have b : Seen (1 / 8) 6 0 ![2, -1, 41] (fun exact => exact ≤ -((3 / 2 : ℚ) + integrationError 6 0 (.allImage openFrame))) (.allImage openFrame) := ⟨openFrame_usable, openFrame_sees⟩
  have c : Seen (1 / 8) 6 0 ![2, -1, 41] (fun exact => exact = 4 * Real.log (3 / 5)) (.allImage openFrame) := ⟨openFrame_usable, openFrame_exact⟩
  have hv : (HashedBlocks.create ⟨1 / 8, -2, 4⟩ 4).getCellValue ![2, -1, 41] = 4 := rfl
  have hlog := Real.one_sub_inv_le_log_of_pos (show (0 : ℝ) < 3 / 5 by norm_num)
  norm_num at hlog
  obtain ⟨m1, p1, p2, p3, -, p5, p6⟩ := C101_appears_partial logF sqrtF hl hs hsf (HashedBlocks.create ⟨1 / 8, -2, 4⟩ 4) List.nodup_nil (by decide +kernel) 4
    (by norm_num [HashedBlocks.create]) (by norm_num [HashedBlocks.create]) ![2, -1, 41] (by rw [hv]; norm_num) 6 0 (3 / 2) (by norm_num) (by norm_num) _ _ (.seen a .none)
  have c1 : m1.config = ⟨1 / 8, -2, 4⟩ := p3
  have v1 : m1.getCellValue ![2, -1, 41] ≤ 4 := p5 (by decide)
  have v1' : 4 ≤ m1.getCellValue ![2, -1, 41] := by
    refine le_trans ?_ p6
    rw [hv]
    norm_num [HashedBlocks.create]
  obtain ⟨m2, q1, -, -, -, -, q6⟩ := C101_cleared_partial logF sqrtF hl hs hsf m1 p2 (by rw [c1]; decide +kernel) 4
    (by rw [c1]; norm_num) (by rw [c1]; norm_num) ![2, -1, 41] (abs_le.2 ⟨by linarith, v1⟩) 6 0 (3 / 2) (by norm_num) (by norm_num) _ _ (by rw [c1]; exact .seen b .none)
  rw [c1] at q6
  have v2 : m2.getCellValue ![2, -1, 41] ≤ 251 / 100 := by
    refine q6.trans (max_le (by norm_num) ?_)
    push_cast
    linarith
  obtain ⟨m3, u, e, r1, r2, r3, r4, r5, r6⟩ := seen_step (logF := logF) (sqrtF := sqrtF) hl hs hsf (m := HashedBlocks.create ⟨1 / 8, -2, 4⟩ 4) List.nodup_nil
    (by norm_num [HashedBlocks.create]) c
  have c3 : m3.config = ⟨1 / 8, -2, 4⟩ := r3
  have hu : (-27 / 10 : ℚ) ≤ u := by
    have h1 := (abs_le.1 r5).1
    have h2 : integrationError 6 0 (.allImage openFrame) ≤ 1 / 40 := openFrame_error
    rw [r4] at h1
    have : ((-27 / 10 : ℚ) : ℝ) ≤ u := by push_cast; linarith
    exact_mod_cast this
  have v3 : 129 / 100 ≤ m3.getCellValue ![2, -1, 41] := by
    rw [r6, hv]
    split
    · norm_num
    · have k1 := fl_mono (show (13 / 10 : ℚ) ≤ 4 + u by linarith)
      have k2 := (abs_le.1 (fl_err (13 / 10))).1
      norm_num [abs_of_pos] at k2
      rw [clamp_eq (by norm_num [HashedBlocks.create])]
      refine le_trans (le_min ?_ ?_) (le_max_right _ _)
      · linarith
      · norm_num [HashedBlocks.create]
  have v3' : m3.getCellValue ![2, -1, 41] ≤ 4 := by
    rw [r6, hv]
    split
    · exact le_rfl
    · exact (within (B := 4) (by norm_num [HashedBlocks.create]) (by norm_num [HashedBlocks.create]) (by norm_num [HashedBlocks.create]) _).2.2
  obtain ⟨m4, t1, -, -, -, -, t6⟩ := C101_appears_partial logF sqrtF hl hs hsf m3 r2 (by rw [c3]; decide +kernel) 4
    (by rw [c3]; norm_num) (by rw [c3]; norm_num) ![2, -1, 41] (abs_le.2 ⟨by linarith, v3'⟩) 6 0 (3 / 2) (by norm_num) (by norm_num) _ _ (by rw [c3]; exact .seen a .none)
  rw [c3] at t6
  have v4 : 278 / 100 ≤ m4.getCellValue ![2, -1, 41] := by
    refine le_trans (le_min (by norm_num) ?_) t6
    push_cast
    linarith
  refine ⟨HashedBlocks.create ⟨1 / 8, -2, 4⟩ 4, .allImage wallFrame, .allImage openFrame, ![2, -1, 41], m2, m4, List.nodup_nil, by decide +kernel, hv, ?_, ?_, by linarith⟩
  · exact integrate_append (l := [.allImage wallFrame]) (l' := [.allImage openFrame]) p1 q1
  · exact integrate_cons r1 t1

/-- A cell of the box that is in range but below the image is not seen. -/
example : Unseen (1 / 8) 2 0 ![4, 4, 8] (.nearestImage clearFrame) := by
  have e1 : exactCell clearFrame.view (1 / 8) ![4, 4, 8] 1 = 9 / 16 := by decide +kernel
  have e2 : exactCell clearFrame.view (1 / 8) ![4, 4, 8] 2 = 17 / 16 := by decide +kernel
  have hp : positionError 2 0 = 146 / 2 ^ 24 := by norm_num [positionError]
  have hk : Single.kEpsilon ≤ 1 / 1000 := by decide +kernel
  refine ⟨clearFrame_usable, by decide, ?_, ?_, Or.inr (Or.inr (Or.inr ⟨?_, ?_, ?_, ?_⟩))⟩
  · intro k; fin_cases k <;> norm_num [abs_of_nonneg, abs_of_neg]
  · intro k; norm_num [clearFrame, exampleView]
  · rw [e2, hp]; norm_num [clearFrame, exampleView]
  · rw [e2, hp]; norm_num [clearFrame, exampleView]
  · rw [e2, hp]; norm_num at hk ⊢; linarith
  · rintro i ⟨-, h⟩
    rw [e1, e2, hp] at h
    have b := (abs_le.1 h).1
    norm_num [clearFrame, exampleView, pixelError] at b
    have hi : 480 < i.2 := by
      have : (480 : ℚ) < i.2 := by linarith
      exact_mod_cast this
    unfold Image.at Image.inBounds
    rw [if_neg]
    simp only [clearFrame, exampleView, Bool.and_eq_true, decide_eq_true_eq]
    rintro ⟨-, h2⟩
    have : i.2 < 480 := of_decide_eq_true h2
    omega

end Wavemap
