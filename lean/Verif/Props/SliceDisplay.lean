import Verif.Model.SliceDisplay
import Verif.Lemmas.VoxelDisplay
/-!
# C74 The slice display

The slice display of the RViz plugin shows the map's values on a horizontal plane: wherever a stored cell cuts the plane and its value lies between the two
thresholds there is exactly one square, with the color of the cell's value, and nowhere else is there any.
-/
namespace Wavemap
open NdtreeIndex NTree Haar

/-! ## Specification -/

/-- What is drawn on the screen: a colored horizontal square. -/
structure Square where
  x : ℚ
  y : ℚ
  z : ℚ
  width : ℚ
  alpha : ℚ
  colour : SliceColour
deriving DecidableEq

/-- All squares that are drawn. -/
def SliceDisplay.squares (s : SliceDisplay) : List Square :=
  s.levels.flatMap fun layer => layer.cells.map fun c => ⟨c.x, c.y, c.z, layer.width, layer.alpha, c.colour⟩

/-- The square contains the point. -/
def Square.Covers (q : Square) (x y : ℚ) : Prop :=
  (q.x - q.width / 2 ≤ x ∧ x < q.x + q.width / 2) ∧ q.y - q.width / 2 ≤ y ∧ y < q.y + q.width / 2

instance (q : Square) (x y : ℚ) : Decidable (q.Covers x y) := by unfold Square.Covers; infer_instance

/-- Cell `j` of a map with cells of width `w` contains the point. -/
def CellHolds (w : ℚ) (j : Index 3) (x y z : ℚ) : Prop :=
  ((j 0 : ℚ) * w ≤ x ∧ x < (j 0 + 1) * w) ∧ ((j 1 : ℚ) * w ≤ y ∧ y < (j 1 + 1) * w) ∧ (j 2 : ℚ) * w ≤ z ∧ z < (j 2 + 1) * w

/-- The map stores a value for the cell. Blocks (or a wavelet octree) without content store none: by `C74_not_stored` their cells read as unknown. -/
def AnyMap.Stored : AnyMap → Index 3 → Prop
  | .hashedBlocks m, j => m.hash.hasValue j = true
  | .waveletOctree m, j => m.empty = false ∧ CellInMap m.config.treeHeight j
  | .hashedWavelet m, j => ∃ k b, InBlock m.config.treeHeight k j ∧ m.blocks.getBlock k = some b ∧ b.empty = false
  | .hashedChunked m, j => ∃ k b, InBlock m.config.treeHeight k j ∧ m.blocks.getBlock k = some b ∧ b.empty = false
  | .volumetricOctree m, j => CellInMap m.config.treeHeight j

/-- A well-formed map of one of the types that a message or a file can bring into the display. -/
def AnyMap.Tidy : AnyMap → Prop
  | .hashedBlocks m => m.Wf ∧ 0 < m.config.minCellWidth
  | .waveletOctree m => m.Inv ∧ 0 < m.config.minCellWidth
  | .hashedWavelet m => m.Sound
  | _ => False

/-- The display shows the map `m` on the plane at its height. -/
structure SliceDisplay.Shows (s : SliceDisplay) (m : AnyMap) : Prop where
  plane : ∀ q ∈ s.squares, q.z = s.height ∧ q.alpha = s.alpha
  square : ∀ x y j, CellHolds m.minCellWidth j x y s.height → m.Stored j → s.minLogOdds ≤ m.cell j → m.cell j ≤ s.maxLogOdds →
    ∃ q, s.squares.filter (fun q => decide (q.Covers x y)) = [q] ∧ q.colour = s.colour.pick s.minLogOdds s.maxLogOdds (m.cell j)
  nothing : ∀ x y j, CellHolds m.minCellWidth j x y s.height → ¬ (m.Stored j ∧ s.minLogOdds ≤ m.cell j ∧ m.cell j ≤ s.maxLogOdds) →
    s.squares.filter (fun q => decide (q.Covers x y)) = []

/-! ## The leaves of the map -/

theorem AnyMap.Tidy.width {m : AnyMap} (h : m.Tidy) : 0 < m.minCellWidth := by
  cases m with
  | hashedBlocks m => exact h.2
  | waveletOctree m => exact h.2
  | hashedWavelet m => exact HashedWaveletOctree.Sound.width h
  | hashedChunked m => cases h
  | volumetricOctree m => cases h

theorem AnyMap.Tidy.leaves {m : AnyMap} (h : m.Tidy) : ∃ leaves, publishedLeaves false 0 m = some leaves ∧
    LeavesTell leaves m.Stored m.cell ∧ ∀ e ∈ leaves, 0 ≤ e.1.height ∧ e.1.height ≤ m.treeHeight := by
  cases m with
  | hashedBlocks m =>
    refine ⟨_, rfl, h.1.tell, fun e he => ?_⟩
    rw [(C23_hashed_blocks_leaves m h.1 0).1 e he]
    exact ⟨le_refl _, le_refl _⟩
  | waveletOctree m =>
    cases he : m.empty with
    | false =>
      refine ⟨_, rfl, (h.1.tell he).congr (fun j => ?_) fun j _ => rfl, fun e hmem => ?_⟩
      · show m.empty = false ∧ _ ↔ _
        rw [he]; simp
      · have hmem : e ∈ m.forEachLeaf := hmem
        unfold WaveletOctree.forEachLeaf at hmem
        rw [he] at hmem
        simp only [Bool.false_eq_true, if_false, List.mem_map] at hmem
        obtain ⟨e', hmem', rfl⟩ := hmem
        have := WTree.leaves_height _ _ _ h.1.depth m.internalRoot rfl m.rootScale e' hmem'
        exact ⟨this.1, this.2.le⟩
    | true =>
      have hn : m.forEachLeaf = [] := by unfold WaveletOctree.forEachLeaf; rw [if_pos he]
      refine ⟨[], congrArg some hn, ⟨(fun e he => by cases he), fun j hj => ?_, fun j _ => rfl⟩, fun e he => by cases he⟩
      have := hj.1; rw [he] at this; cases this
  | hashedWavelet m =>
    have hs : m.Sound := h
    have ht := hs.tell fun b => !false || decide (0 < b.lastUpdated)
    refine ⟨_, rfl, ht.congr (fun j => ?_) fun _ _ => rfl, fun e he => ?_⟩
    · show (∃ k b, _) ↔ ∃ b, _
      constructor
      · rintro ⟨k, b, h1, h2, h3⟩
        rw [inBlock_iff] at h1
        exact ⟨b, by rw [h1]; exact h2, h3, rfl⟩
      · rintro ⟨b, h1, h2, _⟩
        exact ⟨_, b, (inBlock_iff _ _).2 rfl, h1, h2⟩
    · obtain ⟨x, hx, he⟩ := List.mem_flatMap.1 he
      have hf := hs.fits _ _ (SpatialHash.getBlock_of_mem hs.nodup (List.mem_filter.1 hx).1)
      unfold WaveletBlock.forEachLeaf at he
      split at he
      · cases he
      · rw [hf.height] at he
        have := WTree.leaves_height _ m.config.treeHeight _ hf.depth ⟨m.config.treeHeight, x.1⟩ rfl _ e he
        exact ⟨this.1, this.2.le⟩
  | hashedChunked m => cases h
  | volumetricOctree m => cases h

/-! ## Squares and cells -/

/-- A node's interval contains the coordinate iff it contains the cell of the coordinate. -/
theorem interval_iff {w x : ℚ} (hw : 0 < w) {j p : Int} {h : Nat} (hj : (j : ℚ) * w ≤ x) (hj' : x < (j + 1) * w) :
    ((p : ℚ) * (2 ^ h * w) ≤ x ∧ x < (p + 1) * (2 ^ h * w)) ↔ (p * 2 ^ h ≤ j ∧ j < (p + 1) * 2 ^ h) := by
  have h1 : ((p : ℚ) * (2 ^ h * w) ≤ x) ↔ p * 2 ^ h ≤ j := by
    constructor
    · intro hx
      have : (p : ℚ) * 2 ^ h * w < (j + 1) * w := by linarith [mul_assoc (p : ℚ) (2 ^ h) w]
      have := lt_of_mul_lt_mul_right this hw.le
      have : p * 2 ^ h < j + 1 := by exact_mod_cast this
      omega
    · intro hp
      have : (p : ℚ) * 2 ^ h ≤ j := by exact_mod_cast hp
      have := mul_le_mul_of_nonneg_right this hw.le
      linarith [mul_assoc (p : ℚ) (2 ^ h) w]
  have h2 : (x < (p + 1) * (2 ^ h * w)) ↔ j < (p + 1) * 2 ^ h := by
    constructor
    · intro hx
      have : (j : ℚ) * w < ((p + 1) * 2 ^ h) * w := by linarith [mul_assoc ((p : ℚ) + 1) (2 ^ h) w]
      have := lt_of_mul_lt_mul_right this hw.le
      exact_mod_cast this
    · intro hp
      have hp' : j + 1 ≤ (p + 1) * 2 ^ h := hp
      have : (j : ℚ) + 1 ≤ (p + 1) * 2 ^ h := by exact_mod_cast hp'
      have := mul_le_mul_of_nonneg_right this hw.le
      linarith [mul_assoc ((p : ℚ) + 1) (2 ^ h) w]
  rw [h1, h2]

namespace SliceDisplay

/-- The square of a leaf. -/
def leafSquare (s : SliceDisplay) (w : ℚ) (e : NdtreeIndex 3 × ℚ) : Square :=
  ⟨nodeIndexToCenterPoint e.1 w 0, nodeIndexToCenterPoint e.1 w 1, s.height, heightToCellWidth w e.1.height.toNat, s.alpha,
    s.colour.pick s.minLogOdds s.maxLogOdds e.2⟩

/-- The leaf gets a square. -/
def takes (s : SliceDisplay) (w : ℚ) (e : NdtreeIndex 3 × ℚ) : Bool :=
  decide (e.1.position 2 = ⌊s.height / heightToCellWidth w e.1.height.toNat⌋ ∧ s.minLogOdds ≤ e.2 ∧ e.2 ≤ s.maxLogOdds)

theorem takes_covers (s : SliceDisplay) {w : ℚ} (hw : 0 < w) (e : NdtreeIndex 3 × ℚ) {x y : ℚ} {j : Index 3} (hj : CellHolds w j x y s.height) :
    (s.takes w e && decide ((s.leafSquare w e).Covers x y)) = (decide (NodeRegion e.1 j) && decide (s.minLogOdds ≤ e.2 ∧ e.2 ≤ s.maxLogOdds)) := by
  obtain ⟨hx, hy, hz⟩ := hj
  have hW : heightToCellWidth w e.1.height.toNat = 2 ^ e.1.height.toNat * w := by
    unfold heightToCellWidth exp2; norm_num [Nat.shiftLeft_eq, mul_comm]
  have hpos : 0 < 2 ^ e.1.height.toNat * w := by positivity
  have hz' : e.1.position 2 = ⌊s.height / (2 ^ e.1.height.toNat * w)⌋ ↔
      ((e.1.position 2 : ℚ) * (2 ^ e.1.height.toNat * w) ≤ s.height ∧ s.height < (e.1.position 2 + 1) * (2 ^ e.1.height.toNat * w)) := by
    rw [eq_comm, Int.floor_eq_iff, le_div_iff₀ hpos, div_lt_iff₀ hpos]
  have hcov : (s.leafSquare w e).Covers x y ↔
      ((e.1.position 0 : ℚ) * (2 ^ e.1.height.toNat * w) ≤ x ∧ x < (e.1.position 0 + 1) * (2 ^ e.1.height.toNat * w)) ∧
      (e.1.position 1 : ℚ) * (2 ^ e.1.height.toNat * w) ≤ y ∧ y < (e.1.position 1 + 1) * (2 ^ e.1.height.toNat * w) := by
    unfold Square.Covers leafSquare nodeIndexToCenterPoint indexToCenterPoint
    dsimp only
    rw [hW]
    constructor
    · rintro ⟨⟨a, b⟩, c, d⟩; refine ⟨⟨?_, ?_⟩, ?_, ?_⟩ <;> linarith
    · rintro ⟨⟨a, b⟩, c, d⟩; refine ⟨⟨?_, ?_⟩, ?_, ?_⟩ <;> linarith
  have hreg : NodeRegion e.1 j ↔ e.1.position 2 = ⌊s.height / (2 ^ e.1.height.toNat * w)⌋ ∧ (s.leafSquare w e).Covers x y := by
    rw [hz', hcov, interval_iff hw hx.1 hx.2, interval_iff hw hy.1 hy.2, interval_iff hw hz.1 hz.2]
    unfold NodeRegion
    constructor
    · intro h; exact ⟨h 2, h 0, h 1⟩
    · rintro ⟨h2, h0, h1⟩ i
      fin_cases i
      · exact h0
      · exact h1
      · exact h2
  unfold takes
  rw [hW, ← Bool.decide_and, ← Bool.decide_and, decide_eq_decide, hreg]
  tauto

/-! ## Drawing -/

theorem leafCells_eq (s : SliceDisplay) {H : Nat} (w : ℚ) (leaves : List (NdtreeIndex 3 × ℚ)) (hl : ∀ e ∈ leaves, 0 ≤ e.1.height ∧ e.1.height ≤ H) :
    s.leafCells H w leaves = .done ((leaves.filter (s.takes w)).map fun e =>
      (e.1.height, ⟨nodeIndexToCenterPoint e.1 w 0, nodeIndexToCenterPoint e.1 w 1, s.height, s.colour.pick s.minLogOdds s.maxLogOdds e.2⟩)) := by
  induction leaves with
  | nil => rfl
  | cons e es ih =>
    have he := hl e List.mem_cons_self
    rw [leafCells, ih fun e he => hl e (List.mem_cons_of_mem _ he), List.filter_cons]
    unfold leafCell takes
    rw [if_neg (by omega)]
    by_cases h1 : e.1.position 2 = ⌊s.height / heightToCellWidth w e.1.height.toNat⌋
    · rw [if_neg (by rw [not_not]; exact h1)]
      by_cases h2 : e.2 < s.minLogOdds ∨ s.maxLogOdds < e.2
      · rw [if_pos h2, if_neg (by
          rw [decide_eq_true_eq]
          rintro ⟨-, a, b⟩
          rcases h2 with h | h <;> linarith)]
        rfl
      · rw [if_neg h2, if_pos (by
          rw [decide_eq_true_eq]
          rw [not_or, not_lt, not_lt] at h2
          exact ⟨h1, h2⟩)]
        rfl
    · rw [if_pos h1, if_neg (by rw [decide_eq_true_eq]; exact fun h => h1 h.1)]
      rfl

/-- The layers that exist fit a map with cells of width `w` and height `H`, and have the right opacity. -/
structure Fitting (s : SliceDisplay) (w : ℚ) (H : Nat) : Prop where
  count : s.levels.length ≤ H + 1
  layer : ∀ h layer, s.levels[h]? = some layer → layer.width = heightToCellWidth w h ∧ layer.alpha = s.alpha

theorem Fitting.of_nil {s : SliceDisplay} (h : s.levels = []) (w : ℚ) (H : Nat) : s.Fitting w H :=
  ⟨by rw [h]; simp, fun i layer hl => by rw [h] at hl; simp at hl⟩

theorem Fitting.set {s : SliceDisplay} {w : ℚ} {H : Nat} (h : s.Fitting w H) (cells : List (Int × SliceCell)) :
    s.setLevels H w cells = (List.range (H + 1)).map fun height =>
      ⟨heightToCellWidth w height, s.alpha, (cells.filter fun c => decide (c.1 = (height : Int))).map Prod.snd⟩ := by
  unfold setLevels
  rw [List.drop_eq_nil_of_le h.count, List.append_nil]
  apply List.map_congr_left
  intro i _
  dsimp only
  cases e : s.levels[i]? with
  | none => rfl
  | some layer =>
    dsimp only
    obtain ⟨h1, h2⟩ := h.layer i layer e
    rw [← h1, ← h2]

theorem Fitting.after {s : SliceDisplay} {w : ℚ} {H : Nat} (h : s.Fitting w H) (cells : List (Int × SliceCell)) :
    Fitting { s with levels := s.setLevels H w cells } w H := by
  rw [h.set]
  refine ⟨by simp, fun i layer hl => ?_⟩
  dsimp only at hl ⊢
  rw [List.getElem?_map, Option.map_eq_some_iff] at hl
  obtain ⟨a, ha, rfl⟩ := hl
  obtain ⟨hi, rfl⟩ := List.getElem?_eq_some_iff.1 ha
  rw [List.getElem_range]
  exact ⟨rfl, rfl⟩

theorem flatMap_range_one {α : Type} (a : α) (k : Int) (hk : 0 ≤ k) (N : Nat) :
    ((List.range N).flatMap fun (i : Nat) => if k = (i : Int) then [a] else []) = if k < N then [a] else [] := by
  induction N with
  | zero => simp; omega
  | succ N ih =>
    rw [List.range_succ, List.flatMap_append, ih]
    by_cases h1 : k < N
    · rw [if_pos h1, if_pos (by push_cast; omega)]
      simp; omega
    · rw [if_neg h1]
      by_cases h2 : k = N
      · rw [if_pos (by push_cast; omega)]; simp [h2]
      · rw [if_neg (by push_cast; omega)]; simp [h2]

theorem squares_set {s : SliceDisplay} {w : ℚ} {H : Nat} (h : s.Fitting w H) (leaves : List (NdtreeIndex 3 × ℚ)) {cells : List (Int × SliceCell)}
    (hc : s.leafCells H w leaves = .done cells) (hl : ∀ e ∈ leaves, 0 ≤ e.1.height ∧ e.1.height ≤ H) :
    SliceDisplay.squares { s with levels := s.setLevels H w cells } =
      (List.range (H + 1)).flatMap fun (i : Nat) => (leaves.filter fun e => decide (e.1.height = (i : Int)) && s.takes w e).map (s.leafSquare w) := by
  rw [leafCells_eq s w leaves hl] at hc
  injection hc with hc
  unfold squares
  dsimp only
  rw [h.set, List.flatMap_map]
  congr 1
  funext i
  dsimp only
  rw [← hc, List.filter_map, List.map_map, List.map_map, List.filter_filter]
  apply List.map_congr_left
  intro e he
  rw [List.mem_filter, Bool.and_eq_true] at he
  have : e.1.height = (i : Int) := by simpa using he.2.1
  unfold leafSquare
  dsimp only [Function.comp]
  rw [this]
  rfl

/-- Drawing a well-formed map into layers that fit. -/
theorem update_spec {s : SliceDisplay} {m : AnyMap} (hv : s.visible = true) (hm : s.map = some m) (ht : m.Tidy) (hf : s.Fitting m.minCellWidth m.treeHeight) :
    ∃ levels, s.update = .done { s with levels := levels } ∧ Fitting { s with levels := levels } m.minCellWidth m.treeHeight ∧
      Shows { s with levels := levels } m := by
  obtain ⟨leaves, h1, h2, h3⟩ := ht.leaves
  have hw := ht.width
  obtain ⟨cells, hc⟩ : ∃ cells, s.leafCells m.treeHeight m.minCellWidth leaves = .done cells := ⟨_, leafCells_eq s _ leaves h3⟩
  refine ⟨s.setLevels m.treeHeight m.minCellWidth cells, ?_, hf.after cells, ?_⟩
  · unfold update
    rw [hv, hm]
    simp only [Bool.not_true, Bool.false_eq_true, if_false, h1, hc]
    rfl
  · have hsq := squares_set hf leaves hc h3
    have hfil : ∀ x y j, CellHolds m.minCellWidth j x y s.height →
        (SliceDisplay.squares { s with levels := s.setLevels m.treeHeight m.minCellWidth cells }).filter (fun q => decide (q.Covers x y)) =
          (List.range (m.treeHeight + 1)).flatMap fun (i : Nat) => (((leaves.filter fun e => decide (NodeRegion e.1 j)).filter fun e =>
            decide (s.minLogOdds ≤ e.2 ∧ e.2 ≤ s.maxLogOdds)).filter fun e => decide (e.1.height = (i : Int))).map (s.leafSquare m.minCellWidth) := by
      intro x y j hj
      rw [hsq, List.filter_flatMap]
      congr 1
      funext i
      rw [List.filter_map, List.filter_filter, List.filter_filter, List.filter_filter]
      congr 1
      apply List.filter_congr
      intro e _
      dsimp only [Function.comp]
      have := s.takes_covers hw e hj
      cases hh : decide (e.1.height = (i : Int)) with
      | false => simp
      | true =>
        rw [Bool.true_and, Bool.true_and, Bool.and_comm, this, Bool.and_comm]
    refine ⟨?_, ?_, ?_⟩
    · intro q hq
      rw [hsq] at hq
      obtain ⟨i, _, hq⟩ := List.mem_flatMap.1 hq
      obtain ⟨e, _, rfl⟩ := List.mem_map.1 hq
      exact ⟨rfl, rfl⟩
    · intro x y j hj hs hlo hhi
      obtain ⟨n, hn⟩ := h2.inside j hs
      have hmem : (n, m.cell j) ∈ leaves := by
        have : (n, m.cell j) ∈ leaves.filter fun e => decide (NodeRegion e.1 j) := by rw [hn]; exact List.mem_singleton_self _
        exact (List.mem_filter.1 this).1
      have hh := h3 _ hmem
      dsimp only at hh
      refine ⟨s.leafSquare m.minCellWidth (n, m.cell j), ?_, rfl⟩
      rw [hfil x y j hj, hn]
      have hsingle : ([(n, m.cell j)] : List (NdtreeIndex 3 × ℚ)).filter (fun e => decide (s.minLogOdds ≤ e.2 ∧ e.2 ≤ s.maxLogOdds)) = [(n, m.cell j)] := by
        rw [List.filter_cons_of_pos (by simpa using ⟨hlo, hhi⟩)]; rfl
      rw [hsingle]
      have := flatMap_range_one (s.leafSquare m.minCellWidth (n, m.cell j)) n.height hh.1 (m.treeHeight + 1)
      rw [if_pos (by push_cast; omega)] at this
      rw [← this]
      congr 1
      funext i
      by_cases hi : n.height = (i : Int) <;> simp [hi]
    · intro x y j hj hno
      rw [hfil x y j hj]
      have : (leaves.filter fun e => decide (NodeRegion e.1 j)).filter (fun e => decide (s.minLogOdds ≤ e.2 ∧ e.2 ≤ s.maxLogOdds)) = [] := by
        by_cases hs : m.Stored j
        · obtain ⟨n, hn⟩ := h2.inside j hs
          rw [hn, List.filter_cons_of_neg (by
            rw [decide_eq_true_eq]; exact fun h => hno ⟨hs, h⟩)]
          rfl
        · rw [h2.outside j hs]; rfl
      rw [this]
      simp

end SliceDisplay

/-- C74: cells that the map covers but for which it stores no value read as unknown. -/
theorem C74_not_stored (m : AnyMap) (ht : m.Tidy) (j : Index 3) (hc : m.Covers j) (hs : ¬ m.Stored j) : |m.cell j - m.background| < 1 / 1000 := by
  cases m with
  | hashedBlocks m =>
    have : m.getCellValue j = m.hash.defaultValue := (C23_hashed_blocks_leaves m ht.1 j).2.2 (by
      have hs : ¬ m.hash.hasValue j = true := hs
      simpa using hs)
    show |m.getCellValue j - m.hash.defaultValue| < _
    rw [this, sub_self, abs_zero]; norm_num
  | waveletOctree m =>
    have he : m.empty = true := by
      by_contra h
      exact hs ⟨by simpa using h, hc⟩
    have := (ht.1.leaves_empty he).2 j hc
    show |m.getCellValue j - 0| < _
    rw [sub_zero]; exact this
  | hashedWavelet m =>
    have hm : m.Sound := ht
    show |m.getCellValue j - 0| < _
    rw [sub_zero, hm.getCellValue_eq]
    cases e : m.blocks.getBlock (indexToBlockIndex m.config.treeHeight j) with
    | none => simp
    | some b =>
      refine WaveletBlock.empty_val (hm.fits _ _ e).root ?_ j
      by_contra he
      exact hs ⟨_, b, (inBlock_iff _ _).2 rfl, e, by simpa using he⟩
  | hashedChunked m => cases ht
  | volumetricOctree m => cases ht

/-! ## Histories -/

namespace SliceDisplay

/-- The event does not clear the slice, and if it is a message, its frame is known. -/
def Event.Ordinary : Event → Prop
  | .message _ _ transform => transform = true
  | .reset => False
  | _ => True

/-- A history of ordinary events in which the display, once it has a map, always has one, and its maps are well-formed and share a cell width and a height. -/
def Steady (w : ℚ) (H : Nat) : SliceDisplay → List Event → Prop
  | _, [] => True
  | s, e :: es => e.Ordinary ∧ ∀ s', s.step e = .done s' →
      (s'.map = none → s.map = none) ∧ (∀ m, s'.map = some m → m.Tidy ∧ m.minCellWidth = w ∧ m.treeHeight = H) ∧ Steady w H s' es

/-- The display is up to date. -/
structure Fresh (w : ℚ) (H : Nat) (s : SliceDisplay) : Prop where
  fits : s.Fitting w H
  hidden : s.visible = false → s.levels = []
  noMap : s.map = none → s.levels = []
  shows_ : ∀ m, s.map = some m → s.visible = true → s.Shows m

theorem Fresh.update {w : ℚ} {H : Nat} {s : SliceDisplay} (hf : s.Fitting w H) (hn : s.map = none → s.levels = [])
    (hm : ∀ m, s.map = some m → m.Tidy ∧ m.minCellWidth = w ∧ m.treeHeight = H) :
    ∃ s', s.update = .done s' ∧ s'.map = s.map ∧ Fresh w H s' := by
  cases hv : s.visible with
  | false =>
    refine ⟨s.clear, by unfold SliceDisplay.update; rw [hv]; rfl, rfl, Fitting.of_nil rfl _ _, fun _ => rfl, fun _ => rfl, fun m _ h => ?_⟩
    have : s.clear.visible = s.visible := rfl
    rw [this, hv] at h; cases h
  | true =>
    cases e : s.map with
    | none =>
      refine ⟨s, by unfold SliceDisplay.update; rw [hv, e]; rfl, e, hf, fun h => ?_, hn, fun m h => ?_⟩
      · rw [hv] at h; cases h
      · rw [e] at h; cases h
    | some m =>
      obtain ⟨h1, rfl, rfl⟩ := hm m e
      obtain ⟨levels, h2, h3, h4⟩ := update_spec hv e h1 hf
      refine ⟨_, h2, e, h3, fun h => ?_, fun h => ?_, fun m' h _ => ?_⟩
      · have h : s.visible = false := h
        rw [hv] at h; cases h
      · have h : s.map = none := h
        rw [e] at h; cases h
      · have h : s.map = some m' := h
        rw [e] at h; cases h; exact h4

theorem update_map {s s' : SliceDisplay} (h : s.update = .done s') : s'.map = s.map := by
  unfold SliceDisplay.update at h
  split at h
  · cases h; rfl
  · split at h
    · cases h; rfl
    · split at h
      · cases h
      · cases e : s.leafCells _ _ _ with
        | done c => rw [e] at h; cases h; rfl
        | abort => rw [e] at h; cases h
        | undefined => rw [e] at h; cases h

/-- Changing the opacity changes nothing else. -/
theorem Fresh.alpha {w : ℚ} {H : Nat} {s : SliceDisplay} (h : Fresh w H s) (a : ℚ) :
    Fresh w H { s with alpha := a, levels := s.levels.map fun layer => { layer with alpha := a } } := by
  refine ⟨⟨?_, fun i layer hl => ?_⟩, fun hv => ?_, fun hv => ?_, fun m hm hv => ?_⟩
  · rw [List.length_map]; exact h.fits.count
  · dsimp only at hl ⊢
    rw [List.getElem?_map, Option.map_eq_some_iff] at hl
    obtain ⟨l, hl, rfl⟩ := hl
    exact ⟨(h.fits.layer i l hl).1, rfl⟩
  · dsimp only at hv ⊢; rw [h.hidden hv]; rfl
  · dsimp only at hv ⊢; rw [h.noMap hv]; rfl
  · have hs := h.shows_ m hm hv
    have hsq : SliceDisplay.squares { s with alpha := a, levels := s.levels.map fun layer => { layer with alpha := a } } =
        s.squares.map fun q => { q with alpha := a } := by
      unfold squares
      dsimp only
      rw [List.flatMap_map, List.map_flatMap]
      congr 1
      funext layer
      rw [List.map_map]
      rfl
    have hfil : ∀ x y, (s.squares.map fun q => { q with alpha := a }).filter (fun q => decide (q.Covers x y)) =
        (s.squares.filter fun q => decide (q.Covers x y)).map fun q => { q with alpha := a } := by
      intro x y
      rw [List.filter_map]
      rfl
    refine ⟨?_, ?_, ?_⟩
    · rw [hsq]
      intro q hq
      obtain ⟨q', hq', rfl⟩ := List.mem_map.1 hq
      exact ⟨(hs.plane q' hq').1, rfl⟩
    · intro x y j hj h1 h2 h3
      obtain ⟨q, hq, hc⟩ := hs.square x y j hj h1 h2 h3
      exact ⟨{ q with alpha := a }, by rw [hsq, hfil, hq]; rfl, hc⟩
    · intro x y j hj h1
      rw [hsq, hfil, hs.nothing x y j hj h1]; rfl

theorem Fresh.step {w : ℚ} {H : Nat} {s s' : SliceDisplay} {e : Event} (h : Fresh w H s) (he : e.Ordinary)
    (hm0 : ∀ m, s.map = some m → m.Tidy ∧ m.minCellWidth = w ∧ m.treeHeight = H) (hs : s.step e = .done s')
    (hn : s'.map = none → s.map = none) (hm : ∀ m, s'.map = some m → m.Tidy ∧ m.minCellWidth = w ∧ m.treeHeight = H) : Fresh w H s' := by
  -- redrawing after a change that keeps the layers
  have redraw : ∀ t : SliceDisplay, t.update = .done s' → t.levels = s.levels → t.alpha = s.alpha → (t.map = none → s.map = none) →
      (∀ m, t.map = some m → m.Tidy ∧ m.minCellWidth = w ∧ m.treeHeight = H) → Fresh w H s' := by
    intro t h5 h1 h2 h3 h4
    obtain ⟨s2, g1, _, g3⟩ := Fresh.update (w := w) (H := H) (s := t)
      ⟨by rw [h1]; exact h.fits.count, fun i l hl => by rw [h1] at hl; rw [h2]; exact h.fits.layer i l hl⟩
      (fun hz => by rw [h1]; exact h.noMap (h3 hz)) h4
    rw [g1] at h5
    cases h5; exact g3
  -- a map that is missing now was missing before
  have same : ∀ t : SliceDisplay, t.levels = s.levels → t.alpha = s.alpha → t.map = none → s.map = none → Fresh w H t := by
    intro t h1 h2 h3 h4
    have hl : t.levels = [] := by rw [h1]; exact h.noMap h4
    exact ⟨.of_nil hl _ _, fun _ => hl, fun _ => hl, fun m hm => by rw [h3] at hm; cases hm⟩
  cases e with
  | message msg now transform =>
    have he : transform = true := he
    subst he
    simp only [SliceDisplay.step] at hs
    cases er : rosMsgToMap now msg s.map with
    | abort => rw [er] at hs; cases hs
    | undefined => rw [er] at hs; cases hs
    | done r =>
      rw [er] at hs
      simp only [Outcome.bind, Bool.true_and] at hs
      cases e2 : r.2 with
      | none =>
        rw [e2] at hs
        simp only [Option.isSome_none, Bool.false_eq_true, if_false] at hs
        cases hs
        exact same _ rfl rfl rfl (hn rfl)
      | some m =>
        rw [e2] at hs
        simp only [Option.isSome_some, if_true] at hs
        have := update_map hs
        exact redraw _ hs rfl rfl (fun h => by cases h) (fun m hm' => hm m (this.trans hm'))
  | load file now =>
    simp only [SliceDisplay.step] at hs
    split at hs
    · cases hs
    · cases hs
    · next map _ =>
      cases map with
      | none =>
        simp only [Option.isSome_none, Bool.false_eq_true, if_false] at hs
        cases hs
        exact same _ rfl rfl rfl (hn rfl)
      | some m =>
        simp only [Option.isSome_some, if_true] at hs
        have := update_map hs
        exact redraw _ hs rfl rfl (fun h => by cases h) (fun m hm' => hm m (this.trans hm'))
    · next map _ =>
      cases map with
      | none =>
        simp only [Option.isNone_none, if_true] at hs
        cases hs
        exact same _ rfl rfl rfl (hn rfl)
      | some m =>
        simp only [Option.isNone_some, Bool.false_eq_true, if_false] at hs
        cases hs
        exact h
  | sourceMode =>
    simp only [SliceDisplay.step] at hs
    cases e2 : s.map with
    | none =>
      rw [e2] at hs
      simp only [Option.map_none, Option.isSome_none, Bool.false_eq_true, if_false] at hs
      cases hs
      exact same _ rfl rfl rfl e2
    | some m =>
      rw [e2] at hs
      simp only [Option.map_some, Option.isSome_some, if_true] at hs
      have := update_map hs
      exact redraw _ hs rfl rfl (fun h => by cases h) (fun m hm' => hm m (this.trans hm'))
  | reset => exact he.elim
  | setVisible v =>
    simp only [SliceDisplay.step] at hs
    split at hs
    · exact redraw _ hs rfl rfl (fun h => h) hm0
    · cases hs; exact h
  | setMinLogOdds v =>
    simp only [SliceDisplay.step] at hs
    split at hs
    · exact redraw _ hs rfl rfl (fun h => h) hm0
    · cases hs; exact h
  | setMaxLogOdds v =>
    simp only [SliceDisplay.step] at hs
    split at hs
    · exact redraw _ hs rfl rfl (fun h => h) hm0
    · cases hs; exact h
  | setHeight v =>
    simp only [SliceDisplay.step] at hs
    split at hs
    · exact redraw _ hs rfl rfl (fun h => h) hm0
    · cases hs; exact h
  | setAlpha a =>
    simp only [SliceDisplay.step] at hs
    cases hs; exact h.alpha a
  | setColour v =>
    simp only [SliceDisplay.step] at hs
    split at hs
    · exact redraw _ hs rfl rfl (fun h => h) hm0
    · cases hs; exact h

theorem Fresh.run {w : ℚ} {H : Nat} : ∀ (es : List Event) (s s' : SliceDisplay), Fresh w H s →
    (∀ m, s.map = some m → m.Tidy ∧ m.minCellWidth = w ∧ m.treeHeight = H) → Steady w H s es → s.run es = .done s' → Fresh w H s'
  | [], s, s', h, _, _, hr => by cases hr; exact h
  | e :: es, s, s', h, hm, hst, hr => by
    rw [SliceDisplay.run] at hr
    cases e1 : s.step e with
    | abort => rw [e1] at hr; cases hr
    | undefined => rw [e1] at hr; cases hr
    | done s1 =>
      rw [e1] at hr
      obtain ⟨h1, h2⟩ := hst
      obtain ⟨h3, h4, h5⟩ := h2 s1 e1
      exact Fresh.run es s1 s' (h.step h1 hm e1 h3 h4) h4 h5 hr

end SliceDisplay
end Wavemap
