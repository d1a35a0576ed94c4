import Verif.Props.WaveletOctree
import Verif.Lemmas.HashedWavelet
/-!
# C20–C23 for the wavelet octree, and its index bounds (C56)
-/
namespace Wavemap
open NdtreeIndex

/-! ## Specification -/

/-- All operations of a user of the wavelet octree. -/
inductive WaveletMapOp where
  | write (o : WaveletOp)
  | threshold
  | prune
  | clear

/-- The operation on the modelled map. -/
def WaveletMapOp.run (m : WaveletOctree) : WaveletMapOp → WaveletOctree
  | .write o => o.run m
  | .threshold => m.threshold
  | .prune => m.prune
  | .clear => m.clear

/-- The operation addresses a node of the map. -/
def WaveletMapOp.InMap (H : Nat) : WaveletMapOp → Prop
  | .write o => NodeInMap H o.node
  | _ => True

/-- A map reachable by any sequence of operations inside the map from a new map. -/
def WaveletOctree.Reachable (m : WaveletOctree) : Prop :=
  ∃ config : WaveletOctreeConfig, config.isValid = true ∧ config.treeHeight ≤ 20 ∧
    ∃ ops : List WaveletMapOp, (∀ o ∈ ops, o.InMap config.treeHeight) ∧
      ops.foldl WaveletMapOp.run (.create config) = m

/-! ## Invariant -/
namespace WaveletOctree

/-- Invariant of reachable maps. -/
structure Inv (m : WaveletOctree) : Prop where
  pos : 0 < m.config.treeHeight
  le : m.config.treeHeight ≤ 20
  bounds : m.config.minLogOdds ≤ m.config.maxLogOdds
  root : m.root ≠ .nil
  depth : WTree.DepthLe m.config.treeHeight m.root

theorem Inv.create {config : WaveletOctreeConfig} (hc : config.isValid = true) (hH : config.treeHeight ≤ 20) :
    (WaveletOctree.create config).Inv := by
  simp only [WaveletOctreeConfig.isValid, Bool.and_eq_true, decide_eq_true_eq] at hc
  refine ⟨hc.2, hH, le_of_lt hc.1.2, by simp [WaveletOctree.create], ?_⟩
  obtain ⟨h, hh⟩ : ∃ h, config.treeHeight = h + 1 := ⟨config.treeHeight - 1, by have := hc.2; omega⟩
  show WTree.DepthLe config.treeHeight _
  rw [hh]; exact WTree.DepthLe.leaf h _

theorem path_length {m : WaveletOctree} {n : NdtreeIndex 3} (hn : NodeInMap m.config.treeHeight n) :
    (m.path n).length ≤ m.config.treeHeight := by
  unfold path
  rw [nodePath_length (toInternal_inTree m n hn)]
  have : (m.toInternal n).height = n.height := rfl
  rw [this]; have := hn.1; omega

theorem Inv.addNode {m : WaveletOctree} (h : m.Inv) {n : NdtreeIndex 3} (hn : NodeInMap m.config.treeHeight n) (u : ℚ) :
    (m.addToNodeValue n u).Inv :=
  ⟨h.pos, h.le, h.bounds, WTree.addPath_ne_nil _ h.root _ _, WTree.DepthLe.addPath h.root h.depth _ (path_length hn) u⟩

theorem threshold_root (m : WaveletOctree) :
    m.threshold.root = (m.root.recThreshold m.config.minLogOdds m.config.maxLogOdds m.rootScale).1 ∧
    m.threshold.rootScale = (m.root.recThreshold m.config.minLogOdds m.config.maxLogOdds m.rootScale).2 := by
  unfold threshold
  dsimp only
  rw [WTree.recThresholdDelta_eq]
  exact ⟨rfl, by simp⟩

theorem prune_root (m : WaveletOctree) :
    m.prune.root = (m.root.recThreshold m.config.minLogOdds m.config.maxLogOdds m.rootScale).1.recPrune ∧
    m.prune.rootScale = (m.root.recThreshold m.config.minLogOdds m.config.maxLogOdds m.rootScale).2 := by
  unfold prune
  dsimp only
  rw [WTree.recPruneDelta_eq]
  exact ⟨rfl, by simp⟩

theorem Inv.threshold {m : WaveletOctree} (h : m.Inv) : m.threshold.Inv := by
  refine ⟨h.pos, h.le, h.bounds, ?_, ?_⟩
  · rw [(threshold_root m).1]; exact fun e => h.root ((WTree.recThreshold_isNil _ _ _ _).1 e)
  · rw [(threshold_root m).1]; exact h.depth.recThreshold _ _ _

theorem Inv.prune {m : WaveletOctree} (h : m.Inv) : m.prune.Inv := by
  refine ⟨h.pos, h.le, h.bounds, ?_, ?_⟩
  · rw [(prune_root m).1]
    exact fun e => h.root ((WTree.recThreshold_isNil _ _ _ _).1 ((WTree.recPrune_isNil _).1 e))
  · rw [(prune_root m).1]; exact (h.depth.recThreshold _ _ _).recPrune

theorem Inv.clear {m : WaveletOctree} (h : m.Inv) : m.clear.Inv := by
  refine ⟨h.pos, h.le, h.bounds, by simp [WaveletOctree.clear], ?_⟩
  obtain ⟨h', hh⟩ : ∃ h', m.config.treeHeight = h' + 1 := ⟨m.config.treeHeight - 1, by have := h.pos; omega⟩
  show WTree.DepthLe m.config.treeHeight _
  rw [hh]; exact WTree.DepthLe.leaf h' _

theorem Inv.run {m : WaveletOctree} (h : m.Inv) (o : WaveletMapOp) (ho : o.InMap m.config.treeHeight) : (o.run m).Inv := by
  cases o with
  | write o =>
    cases o with
    | add n u => exact h.addNode ho u
    | set n v => exact h.addNode ho _
  | threshold => exact h.threshold
  | prune => exact h.prune
  | clear => exact h.clear

theorem mapOp_config (m : WaveletOctree) (o : WaveletMapOp) : (o.run m).config = m.config := by
  cases o with
  | write o => exact run_treeHeight m o
  | threshold => rfl
  | prune => rfl
  | clear => rfl

theorem Reachable.inv {m : WaveletOctree} (h : m.Reachable) : m.Inv := by
  obtain ⟨config, hc, hH, ops, hops, rfl⟩ := h
  have hi := Inv.create hc hH
  have hcfg : (WaveletOctree.create config).config = config := rfl
  generalize WaveletOctree.create config = m at hi hcfg
  induction ops generalizing m with
  | nil => exact hi
  | cons o ops ih =>
    exact ih (fun o ho => hops o (List.mem_cons_of_mem _ ho)) _
      (hi.run o (by rw [hcfg]; exact hops o List.mem_cons_self)) (by rw [mapOp_config, hcfg])

/-- Path of a cell. -/
def cpath (H : Nat) (i : Index 3) : List (Fin (2 ^ 3)) := cellPath H fun k => i k + 2 ^ (H - 1)

theorem shift_range {H : Nat} (hH : 0 < H) {i : Index 3} (hi : CellInMap H i) (k : Fin 3) :
    0 ≤ i k + 2 ^ (H - 1) ∧ i k + 2 ^ (H - 1) < 2 ^ H := by
  have := hi k
  have e := two_pow_double (a := H) (b := H - 1) (by omega)
  omega

theorem getCellValue_eq {m : WaveletOctree} (h : m.Inv) {i : Index 3} (hi : CellInMap m.config.treeHeight i) :
    m.getCellValue i = m.root.getValue m.rootScale (cpath m.config.treeHeight i) := by
  unfold getCellValue getNodeValue path cpath
  rw [indexAndHeight_zero, toInternal_eq m _ (cell_nodeInMap h.pos hi)]
  simp only [Int.toNat_zero, Nat.sub_zero]
  rw [nodePath_cell h.le (shift_range h.pos hi)]

theorem cpath_end {m : WaveletOctree} (h : m.Inv) (i : Index 3) : m.root.descend (cpath m.config.treeHeight i) = .nil :=
  h.depth.descend _ (cellPath_length _ _)

theorem getCellValue_threshold {m : WaveletOctree} (h : m.Inv) {i : Index 3} (hi : CellInMap m.config.treeHeight i) :
    m.threshold.getCellValue i = clamp m.config.minLogOdds m.config.maxLogOdds (m.getCellValue i) := by
  rw [getCellValue_eq h hi, getCellValue_eq h.threshold hi, (threshold_root m).1, (threshold_root m).2]
  exact WTree.recThreshold_getValue _ _ _ _ _ (cpath_end h i)

end WaveletOctree

/-! ## C20 -/

/-- C20 finding: the wavelet octree does not clamp on add. -/
theorem C20_wavelet_add_clamped_fails :
    ∃ (m : WaveletOctree) (i : Index 3), m.Reachable ∧ CellInMap m.config.treeHeight i ∧ m.config.maxLogOdds = 4 ∧
      (m.addToCellValue i 10).getCellValue i = 10 :=
  ⟨WaveletOctree.create ⟨1, -2, 4, 2⟩, fun _ => -1,
    ⟨⟨1, -2, 4, 2⟩, by decide +kernel, by decide, [], by simp, rfl⟩, by decide +kernel, rfl, by decide +kernel⟩

/-- C20, what does hold: an add followed by `threshold` leaves exactly the clamped sum, after any history.
Missing for the full property: the clamping happens at `threshold`, not at the add. -/
theorem C20_wavelet_add_threshold_partial (m : WaveletOctree) (hm : m.Reachable) (i : Index 3)
    (hi : CellInMap m.config.treeHeight i) (u : ℚ) :
    (m.addToCellValue i u).threshold.getCellValue i
      = max m.config.minLogOdds (min (m.getCellValue i + u) m.config.maxLogOdds) := by
  have h := hm.inv
  have hn := cell_nodeInMap h.pos hi
  have hadd : m.addToCellValue i u = m.addToNodeValue ⟨0, i⟩ u := by
    unfold WaveletOctree.addToCellValue; rw [indexAndHeight_zero]
  rw [hadd]
  have h2 := WaveletOctree.getCellValue_threshold (h.addNode hn u) (i := i) hi
  obtain ⟨u', hu⟩ := C17_write_local m h.le m.getCellValue (fun _ _ => rfl) h.root (.add ⟨0, i⟩ u) hn
  have h3 : (m.addToNodeValue ⟨0, i⟩ u).getCellValue i = m.getCellValue i + u := by
    have e1 := WaveletOctree.getCellValue_eq (h.addNode hn u) (i := i) hi
    rw [e1, WaveletOctree.getCellValue_eq h hi]
    have hp : m.path ⟨0, i⟩ = WaveletOctree.cpath m.config.treeHeight i := by
      unfold WaveletOctree.path WaveletOctree.cpath
      rw [toInternal_eq m _ hn]
      simp only [Int.toNat_zero, Nat.sub_zero]
      rw [nodePath_cell h.le (WaveletOctree.shift_range h.pos hi)]
    unfold WaveletOctree.addToNodeValue
    dsimp only
    rw [hp, WTree.addPath_getValue _ h.root]
    simp
  rw [h2, h3]
  exact clamp_eq h.bounds _

/-! ## C21 -/

/-- C21: after any history, thresholding clamps the value of every cell. -/
theorem C21_wavelet_clamps (m : WaveletOctree) (hm : m.Reachable) (i : Index 3) (hi : CellInMap m.config.treeHeight i) :
    m.threshold.getCellValue i = max m.config.minLogOdds (min (m.getCellValue i) m.config.maxLogOdds) := by
  rw [WaveletOctree.getCellValue_threshold hm.inv hi, clamp_eq hm.inv.bounds]

/-- Thresholding twice is the same as once (the whole map state, although every coefficient is recomputed). -/
theorem C21_wavelet_idempotent (m : WaveletOctree) (hm : m.Reachable) : m.threshold.threshold = m.threshold := by
  have h1 := WaveletOctree.threshold_root m
  have h2 := WaveletOctree.threshold_root m.threshold
  have hcfg : m.threshold.config = m.config := rfl
  rw [hcfg, h1.1, h1.2, WTree.recThreshold_idem hm.inv.bounds, ← h1.1, ← h1.2] at h2
  have hc2 : m.threshold.threshold.config = m.threshold.config := rfl
  cases ha : m.threshold.threshold
  cases hb : m.threshold
  rw [ha, hb] at h2 hc2
  simp only at h2 hc2
  rw [h2.1, h2.2, hc2]

/-- Thresholding a map that is already in bounds changes nothing at all. -/
theorem C21_wavelet_noop (m : WaveletOctree) (hm : m.Reachable)
    (hb : ∀ i, CellInMap m.config.treeHeight i → m.config.minLogOdds ≤ m.getCellValue i ∧ m.getCellValue i ≤ m.config.maxLogOdds)
    (i : Index 3) (hi : CellInMap m.config.treeHeight i) : m.threshold.getCellValue i = m.getCellValue i := by
  rw [WaveletOctree.getCellValue_threshold hm.inv hi, clamp_id (hb i hi).1 (hb i hi).2]

/-- Thresholding does not change the set of leaves (or their order), provided the bounds allow observed values on both
sides of zero. -/
theorem C21_wavelet_leaf_set (m : WaveletOctree) (hm : m.Reachable)
    (hlo : m.config.minLogOdds ≤ -(1 / 1000)) (hhi : 1 / 1000 ≤ m.config.maxLogOdds) :
    m.threshold.forEachLeaf.map Prod.fst = m.forEachLeaf.map Prod.fst := by
  have he := WaveletBlock.recThreshold_empty hlo hhi m.root hm.inv.root m.rootScale
  unfold WaveletOctree.forEachLeaf WaveletOctree.empty
  rw [(WaveletOctree.threshold_root m).1, (WaveletOctree.threshold_root m).2, he]
  split
  · rfl
  · have hint : m.threshold.internalRoot = m.internalRoot := rfl
    have hext : m.threshold.toExternalNodeIndex = m.toExternalNodeIndex := rfl
    rw [hint, hext]
    simp only [List.map_map]
    have := WaveletBlock.leaves_threshold_fst (fun _ => true) m.root m.internalRoot m.rootScale m.rootScale m.config.minLogOdds
      m.config.maxLogOdds (m.root.recThreshold m.config.minLogOdds m.config.maxLogOdds m.rootScale).2
    have := congrArg (List.map m.toExternalNodeIndex) this
    rw [List.map_map, List.map_map] at this
    exact this

/-! ## C22 -/

/-- C22, what does hold: after any history, pruning replaces the value of each cell by its clamped value up to
`19/8000` per tree level below the first. Missing for the full property: pruning is not lossless
(`C22_wavelet_lossless_fails`). -/
theorem C22_wavelet_prune_partial (m : WaveletOctree) (hm : m.Reachable) (i : Index 3) (hi : CellInMap m.config.treeHeight i) :
    |m.prune.getCellValue i - max m.config.minLogOdds (min (m.getCellValue i) m.config.maxLogOdds)|
      ≤ 19 / 8000 * ((m.config.treeHeight - 1 : Nat) : ℚ) := by
  have h := hm.inv
  rw [← clamp_eq h.bounds, ← WaveletOctree.getCellValue_threshold h hi, WaveletOctree.getCellValue_eq h.prune hi,
    WaveletOctree.getCellValue_eq h.threshold hi, (WaveletOctree.prune_root m).1, (WaveletOctree.prune_root m).2,
    (WaveletOctree.threshold_root m).1, (WaveletOctree.threshold_root m).2]
  have := WTree.recPrune_error (m.root.recThreshold m.config.minLogOdds m.config.maxLogOdds m.rootScale).1
    (m.root.recThreshold m.config.minLogOdds m.config.maxLogOdds m.rootScale).2 (WaveletOctree.cpath m.config.treeHeight i)
  rw [show (WaveletOctree.cpath m.config.treeHeight i).length = m.config.treeHeight from cellPath_length _ _] at this
  exact this

/-- C22, lossless case: if after clamping no stored coefficient has a magnitude in `(0, 1/1000]`, pruning gives exactly the
clamped values. -/
theorem C22_wavelet_lossless_partial (m : WaveletOctree) (hm : m.Reachable) (hs : WTree.NoSmallDetails m.threshold.root)
    (i : Index 3) (hi : CellInMap m.config.treeHeight i) :
    m.prune.getCellValue i = max m.config.minLogOdds (min (m.getCellValue i) m.config.maxLogOdds) := by
  have h := hm.inv
  rw [(WaveletOctree.threshold_root m).1] at hs
  rw [← clamp_eq h.bounds, ← WaveletOctree.getCellValue_threshold h hi, WaveletOctree.getCellValue_eq h.prune hi,
    WaveletOctree.getCellValue_eq h.threshold hi, (WaveletOctree.prune_root m).1, (WaveletOctree.prune_root m).2,
    (WaveletOctree.threshold_root m).1, (WaveletOctree.threshold_root m).2]
  exact WTree.recPrune_lossless _ hs _ _

/-- C22 finding: pruning is not lossless, even within the bounds. -/
theorem C22_wavelet_lossless_fails :
    ∃ (m : WaveletOctree) (i : Index 3), m.Reachable ∧ CellInMap m.config.treeHeight i ∧
      m.config.minLogOdds ≤ m.getCellValue i ∧ m.getCellValue i ≤ m.config.maxLogOdds ∧
      m.prune.getCellValue i ≠ m.getCellValue i :=
  ⟨(WaveletOctree.create ⟨1, -2, 4, 2⟩).addToCellValue (fun _ => -1) (1 / 1000), fun _ => -1,
    ⟨⟨1, -2, 4, 2⟩, by decide +kernel, by decide, [.write (.add ⟨0, fun _ => -1⟩ (1 / 1000))], by
      simp only [List.mem_singleton, forall_eq]
      exact ⟨by decide, by decide, fun k => by simp [WaveletOp.node]⟩, by
      simp only [List.foldl_cons, List.foldl_nil, WaveletMapOp.run, WaveletOp.run]
      unfold WaveletOctree.addToCellValue; rw [indexAndHeight_zero]⟩,
    by decide +kernel, by decide +kernel, by decide +kernel, by decide +kernel⟩

/-! ## C23 -/

theorem external_region (m : WaveletOctree) (hpos : 0 < m.config.treeHeight) (n : NdtreeIndex 3) (h0 : 0 ≤ n.height) (h1 : n.height < m.config.treeHeight)
    (j : Index 3) : NodeRegion (m.toExternalNodeIndex n) j ↔ NodeRegion n fun k => j k + 2 ^ (m.config.treeHeight - 1) := by
  unfold NodeRegion WaveletOctree.toExternalNodeIndex
  apply forall_congr'
  intro k
  dsimp only
  have hlt : n.height.toNat < m.config.treeHeight := by omega
  rw [rootIndexOffset_eq m hpos, offset_div hlt, two_pow_split hlt]
  generalize (2 : Int) ^ (m.config.treeHeight - 1 - n.height.toNat) = a
  generalize (2 : Int) ^ n.height.toNat = w
  have e1 : (n.position k - a) * w = n.position k * w - a * w := by ring
  have e2 : (n.position k - a + 1) * w = (n.position k + 1) * w - a * w := by ring
  rw [e1, e2]
  omega

theorem WTree.leaves_height (enter : Int → Bool) (h : Nat) (t : WTree) (hd : DepthLe h t) (n : NdtreeIndex 3) (hn : n.height = h) (s : ℚ) :
    ∀ e ∈ leaves enter t n s, 0 ≤ e.1.height ∧ e.1.height < h := by
  induction h generalizing t n s with
  | zero =>
    have : t = .nil := hd
    subst this; intro e he; cases he
  | succ h ih =>
    intro e he
    by_cases ht : t = .nil
    · subst ht; cases he
    · obtain ⟨l, _, _, hl⟩ := leaves_eq enter t ht n s
      rw [hl, List.mem_append, List.mem_flatMap, List.mem_flatMap] at he
      have hch : ∀ c, (n.computeChildIndex c).height = h := by intro c; simp only [computeChildIndex, hn]; push_cast; omega
      rcases he with ⟨c, _, he⟩ | ⟨c, _, he⟩
      · split at he
        · cases he
        · simp only [List.mem_singleton] at he
          subst he
          simp only [hch]; push_cast; omega
      · split at he
        · have := ih (t.child c) (hd c) _ (hch _) _ e he
          push_cast; omega
        · cases he

theorem WaveletOctree.Inv.leaves {m : WaveletOctree} (h : m.Inv) (he : m.empty = false) (j : Index 3) :
    (CellInMap m.config.treeHeight j → ∃ n : NdtreeIndex 3, NodeRegion n j ∧ 0 ≤ n.height ∧ n.height < m.config.treeHeight ∧
      m.forEachLeaf.filter (fun e => decide (NodeRegion e.1 j)) = [(n, m.getCellValue j)]) ∧
    (¬ CellInMap m.config.treeHeight j → m.forEachLeaf.filter (fun e => decide (NodeRegion e.1 j)) = []) := by
  unfold WaveletOctree.forEachLeaf
  rw [he]
  simp only [Bool.false_eq_true, if_false]
  rw [List.filter_map]
  have hcongr : (m.root.leaves (fun _ => true) m.internalRoot m.rootScale).filter
      ((fun e : NdtreeIndex 3 × ℚ => decide (NodeRegion e.1 j)) ∘ fun e => (m.toExternalNodeIndex e.1, e.2))
      = (m.root.leaves (fun _ => true) m.internalRoot m.rootScale).filter
        (fun e => decide (NodeRegion e.1 fun k => j k + 2 ^ (m.config.treeHeight - 1))) := by
    apply List.filter_congr
    intro e hmem
    have := WTree.leaves_height _ _ _ h.depth m.internalRoot rfl m.rootScale e hmem
    simp only [Function.comp]
    rw [decide_eq_decide]
    exact external_region m h.pos e.1 this.1 this.2 j
  rw [hcongr]
  have key := WTree.leaves_filter (fun _ => true) m.config.treeHeight m.root h.root h.depth m.internalRoot rfl m.rootScale
    fun k => j k + 2 ^ (m.config.treeHeight - 1)
  have hroot : NodeRegion m.internalRoot (fun k => j k + 2 ^ (m.config.treeHeight - 1)) ↔ CellInMap m.config.treeHeight j := by
    unfold NodeRegion WaveletOctree.internalRoot CellInMap
    apply forall_congr'
    intro k
    have e := two_pow_double (a := m.config.treeHeight) (b := m.config.treeHeight - 1) (by have := h.pos; omega)
    simp only [Int.toNat_natCast, zero_mul, zero_add, one_mul]
    omega
  constructor
  · intro hj
    obtain ⟨n, h1, h2, h3, h4, h5, _⟩ := key.1 (hroot.2 hj)
    refine ⟨m.toExternalNodeIndex n, (external_region m h.pos n h1 h2 j).2 h3, h1, h2, ?_⟩
    rw [h4, WaveletOctree.getCellValue_eq h hj]
    simp only [List.map_cons, List.map_nil]
    rcases h5 with h5 | h5
    · rw [WTree.getValue_take _ _ _ _ h5]; rfl
    · simp at h5
  · intro hj
    rw [key.2 (fun e => hj (hroot.1 e))]; rfl

/-- C23: after any history, if the map is not empty, every cell of the map lies in exactly one reported leaf, and the value
reported for it is the one a point query returns; no leaf reaches outside the map. -/
theorem C23_wavelet_leaves (m : WaveletOctree) (hm : m.Reachable) (he : m.empty = false) (j : Index 3) :
    (CellInMap m.config.treeHeight j → ∃ n : NdtreeIndex 3, NodeRegion n j ∧ 0 ≤ n.height ∧ n.height < m.config.treeHeight ∧
      m.forEachLeaf.filter (fun e => decide (NodeRegion e.1 j)) = [(n, m.getCellValue j)]) ∧
    (¬ CellInMap m.config.treeHeight j → m.forEachLeaf.filter (fun e => decide (NodeRegion e.1 j)) = []) :=
  hm.inv.leaves he j

theorem WaveletOctree.Inv.leaves_empty {m : WaveletOctree} (h : m.Inv) (he : m.empty = true) :
    m.forEachLeaf = [] ∧ ∀ j, CellInMap m.config.treeHeight j → |m.getCellValue j| < 1 / 1000 := by
  refine ⟨by unfold WaveletOctree.forEachLeaf; rw [if_pos he], fun j hj => ?_⟩
  rw [WaveletOctree.getCellValue_eq h hj]
  have hv := WaveletBlock.empty_val (b := ⟨m.config.treeHeight, 0, 0, m.rootScale, m.root, false, false, 0⟩) h.root he
    fun k => j k + 2 ^ (m.config.treeHeight - 1)
  exact hv

/-- If the map is empty, nothing is reported, and every cell reads within `1/1000` of zero. -/
theorem C23_wavelet_empty (m : WaveletOctree) (hm : m.Reachable) (he : m.empty = true) :
    m.forEachLeaf = [] ∧ ∀ j, CellInMap m.config.treeHeight j → |m.getCellValue j| < 1 / 1000 :=
  hm.inv.leaves_empty he

/-! ## C56 Reported index bounds -/

theorem foldl_min_le {β : Type} (l : List β) (p : β → Bool) (f : β → Index 3) (k : Fin 3) (init : Index 3) :
    let r := l.foldl (fun acc e => if p e then (fun i => min (acc i) (f e i)) else acc) init
    r k ≤ init k ∧ (∀ e ∈ l, p e = true → r k ≤ f e k) ∧ (r k = init k ∨ ∃ e ∈ l, p e = true ∧ r k = f e k) := by
  induction l generalizing init with
  | nil => simp
  | cons e l ih =>
    simp only [List.foldl_cons]
    have := ih (if p e = true then (fun i => min (init i) (f e i)) else init)
    dsimp only at this
    obtain ⟨h1, h2, h3⟩ := this
    by_cases hp : p e = true
    · simp only [hp, if_true] at h1 h2 h3 ⊢
      refine ⟨by omega, ?_, ?_⟩
      · intro e' he' hp'
        rcases List.mem_cons.1 he' with rfl | he'
        · omega
        · exact h2 e' he' hp'
      · rcases h3 with h3 | ⟨e', he', hp', h3⟩
        · rcases Int.le_total (init k) (f e k) with hle | hle
          · left; omega
          · right; exact ⟨e, List.mem_cons_self, hp, by omega⟩
        · right; exact ⟨e', List.mem_cons_of_mem _ he', hp', h3⟩
    · simp only [hp, Bool.false_eq_true, if_false] at h1 h2 h3 ⊢
      refine ⟨h1, ?_, ?_⟩
      · intro e' he' hp'
        rcases List.mem_cons.1 he' with rfl | he'
        · exact absurd hp' hp
        · exact h2 e' he' hp'
      · rcases h3 with h3 | ⟨e', he', hp', h3⟩
        · left; exact h3
        · right; exact ⟨e', List.mem_cons_of_mem _ he', hp', h3⟩

theorem foldl_max_ge {β : Type} (l : List β) (p : β → Bool) (f : β → Index 3) (k : Fin 3) (init : Index 3) :
    let r := l.foldl (fun acc e => if p e then (fun i => max (acc i) (f e i)) else acc) init
    init k ≤ r k ∧ (∀ e ∈ l, p e = true → f e k ≤ r k) ∧ (r k = init k ∨ ∃ e ∈ l, p e = true ∧ r k = f e k) := by
  induction l generalizing init with
  | nil => simp
  | cons e l ih =>
    simp only [List.foldl_cons]
    have := ih (if p e = true then (fun i => max (init i) (f e i)) else init)
    dsimp only at this
    obtain ⟨h1, h2, h3⟩ := this
    by_cases hp : p e = true
    · simp only [hp, if_true] at h1 h2 h3 ⊢
      refine ⟨by omega, ?_, ?_⟩
      · intro e' he' hp'
        rcases List.mem_cons.1 he' with rfl | he'
        · omega
        · exact h2 e' he' hp'
      · rcases h3 with h3 | ⟨e', he', hp', h3⟩
        · rcases Int.le_total (init k) (f e k) with hle | hle
          · right; exact ⟨e, List.mem_cons_self, hp, by omega⟩
          · left; omega
        · right; exact ⟨e', List.mem_cons_of_mem _ he', hp', h3⟩
    · simp only [hp, Bool.false_eq_true, if_false] at h1 h2 h3 ⊢
      refine ⟨h1, ?_, ?_⟩
      · intro e' he' hp'
        rcases List.mem_cons.1 he' with rfl | he'
        · exact absurd hp' hp
        · exact h2 e' he' hp'
      · rcases h3 with h3 | ⟨e', he', hp', h3⟩
        · left; exact h3
        · right; exact ⟨e', List.mem_cons_of_mem _ he', hp', h3⟩

theorem minCorner_region (n : NdtreeIndex 3) (k : Fin 3) :
    nodeIndexToMinCornerIndex n k = n.position k * 2 ^ n.height.toNat ∧
    nodeIndexToMaxCornerIndex n k = (n.position k + 1) * 2 ^ n.height.toNat - 1 := by
  constructor
  · simp [nodeIndexToMinCornerIndex, multExp2_eq]
  · simp [nodeIndexToMaxCornerIndex, nodeIndexToMinCornerIndex, multExp2_eq, exp2_eq]
    ring

/-- C56: after any history, every observed cell (value at least `1/1000` in magnitude) lies within the reported index
bounds. -/
theorem C56_wavelet_bounds_cover (m : WaveletOctree) (hm : m.Reachable) (j : Index 3) (hj : CellInMap m.config.treeHeight j)
    (ho : 1 / 1000 ≤ |m.getCellValue j|) (k : Fin 3) : m.getMinIndex k ≤ j k ∧ j k ≤ m.getMaxIndex k := by
  by_cases he : m.empty = true
  · have := (C23_wavelet_empty m hm he).2 j hj; linarith
  · have he : m.empty = false := by simpa using he
    obtain ⟨n, h1, _, _, h4⟩ := (C23_wavelet_leaves m hm he j).1 hj
    have hmem : (n, m.getCellValue j) ∈ m.forEachLeaf.filter (fun e => decide (NodeRegion e.1 j)) := by rw [h4]; simp
    rw [List.mem_filter] at hmem
    have hp : (!isUnobserved (m.getCellValue j)) = true := by simpa [isUnobserved] using ho
    have hr := h1 k
    unfold WaveletOctree.getMinIndex WaveletOctree.getMaxIndex
    rw [he]
    simp only [Bool.false_eq_true, if_false]
    constructor
    · have := (foldl_min_le m.forEachLeaf (fun e => !isUnobserved e.2) (fun e => nodeIndexToMinCornerIndex e.1) k m.getMaxPossibleIndex).2.1
        _ hmem.1 hp
      simp only [(minCorner_region n k).1] at this
      exact le_trans this hr.1
    · have := (foldl_max_ge m.forEachLeaf (fun e => !isUnobserved e.2) (fun e => nodeIndexToMaxCornerIndex e.1) k m.getMinPossibleIndex).2.1
        _ hmem.1 hp
      simp only [(minCorner_region n k).2] at this
      exact le_trans (by omega) this

/-- C56: the bounds are tight: if any cell is observed, each face of the reported box contains an observed cell. -/
theorem C56_wavelet_bounds_tight (m : WaveletOctree) (hm : m.Reachable)
    (hex : ∃ j, CellInMap m.config.treeHeight j ∧ 1 / 1000 ≤ |m.getCellValue j|) (k : Fin 3) :
    (∃ j, CellInMap m.config.treeHeight j ∧ 1 / 1000 ≤ |m.getCellValue j| ∧ j k = m.getMinIndex k) ∧
    (∃ j, CellInMap m.config.treeHeight j ∧ 1 / 1000 ≤ |m.getCellValue j| ∧ j k = m.getMaxIndex k) := by
  obtain ⟨j0, hj0, ho0⟩ := hex
  have h := hm.inv
  by_cases he : m.empty = true
  · have := (C23_wavelet_empty m hm he).2 j0 hj0; linarith
  have he : m.empty = false := by simpa using he
  have hcov := C56_wavelet_bounds_cover m hm j0 hj0 ho0 k
  -- a leaf's corner cell reads the leaf's value
  have corner : ∀ e ∈ m.forEachLeaf, (!isUnobserved e.2) = true → ∀ j, NodeRegion e.1 j →
      CellInMap m.config.treeHeight j ∧ 1 / 1000 ≤ |m.getCellValue j| := by
    intro e hmem hp j hr
    have hin : e ∈ m.forEachLeaf.filter (fun e => decide (NodeRegion e.1 j)) := List.mem_filter.2 ⟨hmem, by simpa using hr⟩
    by_cases hj : CellInMap m.config.treeHeight j
    · refine ⟨hj, ?_⟩
      obtain ⟨n, _, _, _, h4⟩ := (C23_wavelet_leaves m hm he j).1 hj
      rw [h4, List.mem_singleton] at hin
      subst hin
      simpa [isUnobserved] using hp
    · rw [(C23_wavelet_leaves m hm he j).2 hj] at hin; cases hin
  have hmaxP : ∀ k, m.getMaxPossibleIndex k = 2 ^ (m.config.treeHeight - 1) - 1 := by
    intro k
    simp only [WaveletOctree.getMaxPossibleIndex, rootIndexOffset_eq m h.pos, (minCorner_region _ k).2, WaveletOctree.internalRoot,
      Int.toNat_natCast, zero_add, one_mul]
    have e := two_pow_double (a := m.config.treeHeight) (b := m.config.treeHeight - 1) (by have := h.pos; omega)
    omega
  have hminP : ∀ k, m.getMinPossibleIndex k = -2 ^ (m.config.treeHeight - 1) := by
    intro k
    simp only [WaveletOctree.getMinPossibleIndex, rootIndexOffset_eq m h.pos, (minCorner_region _ k).1, WaveletOctree.internalRoot,
      zero_mul, zero_sub]
  have hregmin : ∀ n : NdtreeIndex 3, NodeRegion n (nodeIndexToMinCornerIndex n) ∧ NodeRegion n (nodeIndexToMaxCornerIndex n) := by
    intro n
    have hw := two_pow_pos' n.height.toNat
    refine ⟨fun k => ?_, fun k => ?_⟩
    · rw [(minCorner_region n k).1]; constructor <;> nlinarith
    · rw [(minCorner_region n k).2]; constructor
      · nlinarith
      · omega
  have hj0k := hj0 k
  have hmin : m.getMinIndex k = (m.forEachLeaf.foldl (fun acc e => if !isUnobserved e.2 then
      fun i => min (acc i) (nodeIndexToMinCornerIndex e.1 i) else acc) m.getMaxPossibleIndex) k := by
    unfold WaveletOctree.getMinIndex; rw [he]; simp only [Bool.false_eq_true, if_false]
  have hmax : m.getMaxIndex k = (m.forEachLeaf.foldl (fun acc e => if !isUnobserved e.2 then
      fun i => max (acc i) (nodeIndexToMaxCornerIndex e.1 i) else acc) m.getMinPossibleIndex) k := by
    unfold WaveletOctree.getMaxIndex; rw [he]; simp only [Bool.false_eq_true, if_false]
  constructor
  · rcases (foldl_min_le m.forEachLeaf (fun e => !isUnobserved e.2) (fun e => nodeIndexToMinCornerIndex e.1) k m.getMaxPossibleIndex).2.2
      with h3 | ⟨e, he', hp, h3⟩
    · refine ⟨j0, hj0, ho0, ?_⟩
      rw [← hmin, hmaxP] at h3
      omega
    · have := corner e he' hp _ (hregmin e.1).1
      exact ⟨_, this.1, this.2, by rw [hmin]; exact h3.symm⟩
  · rcases (foldl_max_ge m.forEachLeaf (fun e => !isUnobserved e.2) (fun e => nodeIndexToMaxCornerIndex e.1) k m.getMinPossibleIndex).2.2
      with h3 | ⟨e, he', hp, h3⟩
    · refine ⟨j0, hj0, ho0, ?_⟩
      rw [← hmax, hminP] at h3
      omega
    · have := corner e he' hp _ (hregmin e.1).2
      exact ⟨_, this.1, this.2, by rw [hmax]; exact h3.symm⟩

example : -- a reachable map with coarse and fine writes, thresholded and pruned, which is not empty
    ∃ m : WaveletOctree, m.Reachable ∧ m.empty = false ∧ CellInMap m.config.treeHeight (fun _ => -2) ∧
      1 / 1000 ≤ |m.getCellValue fun _ => -2| ∧ m.config.minLogOdds ≤ -(1 / 1000) ∧ 1 / 1000 ≤ m.config.maxLogOdds := by
  refine ⟨[WaveletMapOp.write (.add ⟨0, fun _ => -2⟩ 10), .prune, .write (.set ⟨1, fun _ => 0⟩ 3), .threshold].foldl
    WaveletMapOp.run (.create ⟨1, -2, 4, 2⟩), ⟨_, by decide +kernel, by decide, _, ?_, rfl⟩, by decide +kernel,
    by decide +kernel, by decide +kernel, by decide +kernel, by decide +kernel⟩
  intro o ho
  simp only [List.mem_cons, List.not_mem_nil, or_false] at ho
  rcases ho with rfl | rfl | rfl | rfl
  · exact ⟨by decide, by decide, fun k => by simp [WaveletOp.node]⟩
  · trivial
  · exact ⟨by decide, by decide, fun k => by simp [WaveletOp.node]⟩
  · trivial

end Wavemap
