import Verif.Model.FixedResolution
import Verif.Props.Io
import Verif.Props.ChunkedIntegrator
import Verif.Props.CoarseToFine
import Verif.Props.Projectors
/-!
# C66: the fixed-resolution integrator
-/
namespace Wavemap
open NTree NdtreeIndex

/-! ## Specification -/

/-- A map that results from any sequence of operations (and, for the wavelet maps, measurements) on a new map. Volumetric octrees are treated
separately, since reading their cells is not reliable (C24, C65). -/
def AnyMap.Mapped : AnyMap → Prop
  | .hashedBlocks m => ∃ (config : MapBaseConfig) (dv : ℚ) (ops : List HashedBlocksOp), config.isValid = true ∧
      ops.foldl HashedBlocksOp.run (HashedBlocks.create config dv) = m
  | .waveletOctree m => m.Mapped
  | .hashedWavelet m => m.Mapped
  | .hashedChunked m => m.Mapped
  | .volumetricOctree _ => False

/-- The map has room for the cell. -/
def AnyMap.Covers : AnyMap → Index 3 → Prop
  | .waveletOctree m, i => CellInMap m.config.treeHeight i
  | .volumetricOctree m, i => CellInMap m.config.treeHeight i
  | _, _ => True

/-- A value after adding `u`: the hashed blocks clamp the sum. -/
def AnyMap.combine : AnyMap → ℚ → ℚ → ℚ
  | .hashedBlocks m, v, u => max m.config.minLogOdds (min (v + u) m.config.maxLogOdds)
  | _, v, u => v + u

/-- The center of a cell. -/
noncomputable def cellCenter (w : ℝ) (i : Index 3) : Vec3 := fun k => ((i k : ℝ) + 1 / 2) * w

/-- The box contains the point. -/
def RBox.Contains (b : RBox) (p : Vec3) : Prop := ∀ k, b.min k ≤ p k ∧ p k ≤ b.max k

/-- The integrator visits the cell. -/
def RBox.Visits (b : RBox) (w : ℝ) (i : Index 3) : Prop := ∀ k, b.minIndex w k ≤ i k ∧ i k ≤ b.maxIndex w k

/-- `R` is a rotation (or reflection) matrix. -/
def IsOrthogonal (R : Fin 3 → Vec3) : Prop := ∀ i j, R 0 i * R 0 j + R 1 i * R 1 j + R 2 i * R 2 j = if i = j then 1 else 0

/-! ## Writing cells -/

theorem HashedWaveletOctree.Sound.getCellValue_add {m : HashedWaveletOctree} (h : m.Sound) (i : Index 3) (u now : ℚ) (j : Index 3) :
    (m.addToCellValue i u now).getCellValue j = if j = i then m.getCellValue j + u else m.getCellValue j := by
  have hs : (m.addToCellValue i u now).Sound := by
    obtain ⟨m', e, hs, _⟩ := h.step (.op (.write (.add i u now))) trivial
    rw [show (MappingOp.op (.write (.add i u now))).run m = some (m.addToCellValue i u now) from rfl] at e
    rw [Option.some.inj e]
    exact hs
  rw [hs.getCellValue_eq]
  have hcfg : (m.addToCellValue i u now).config = m.config := rfl
  rw [hcfg]
  have hbl : (m.addToCellValue i u now).blocks.getBlock (indexToBlockIndex m.config.treeHeight j) = _ :=
    HashedWaveletOctree.modify_getBlock m i now (fun b => b.addToCellValue (m.nodeToCellIndex ⟨0, i⟩) u now) (indexToBlockIndex m.config.treeHeight j)
  rw [hbl]
  by_cases hb : indexToBlockIndex m.config.treeHeight j = indexToBlockIndex m.config.treeHeight i
  · rw [if_pos hb]
    dsimp only
    have hf := h.getD (indexToBlockIndex m.config.treeHeight j) now
    have hval : ((m.blocks.getBlock (indexToBlockIndex m.config.treeHeight j)).getD
        (.create m.config.treeHeight m.config.minLogOdds m.config.maxLogOdds now)).val j = m.getCellValue j := by
      rw [h.getCellValue_eq]
      cases e : m.blocks.getBlock (indexToBlockIndex m.config.treeHeight j) with
      | none => exact WaveletBlock.create_val now j
      | some b => rfl
    rw [HashedWaveletOctree.nodeToCell_zero m h.le]
    have hv := WaveletBlock.val_add (b := (m.blocks.getBlock (indexToBlockIndex m.config.treeHeight j)).getD
        (.create m.config.treeHeight m.config.minLogOdds m.config.maxLogOdds now)) hf.root (by rw [hf.height]; exact h.le) i u now j
    rw [hval, hf.height] at hv
    refine hv.trans ?_
    by_cases hij : j = i
    · rw [if_pos hij, if_pos ((HashedWaveletOctree.mod_eq_iff hb).2 hij)]
    · rw [if_neg hij, if_neg (fun e => hij ((HashedWaveletOctree.mod_eq_iff hb).1 e)), add_zero]
  · rw [if_neg hb, if_neg (by rintro rfl; exact hb rfl), h.getCellValue_eq]

theorem WaveletOctree.Inv.getCellValue_add {m : WaveletOctree} (h : m.Inv) {i : Index 3} (hi : CellInMap m.config.treeHeight i) (u : ℚ) {j : Index 3}
    (hj : CellInMap m.config.treeHeight j) :
    (m.addToCellValue i u).getCellValue j = if j = i then m.getCellValue j + u else m.getCellValue j := by
  have hn := cell_nodeInMap h.pos hi
  have hadd : m.addToCellValue i u = m.addToNodeValue ⟨0, i⟩ u := by
    unfold WaveletOctree.addToCellValue; rw [indexAndHeight_zero]
  have h3 : (m.addToNodeValue ⟨0, i⟩ u).getCellValue i = m.getCellValue i + u := by
    have e1 := WaveletOctree.getCellValue_eq (h.addNode hn u) (i := i) hi
    rw [e1, WaveletOctree.getCellValue_eq h hi]
    have hp : m.path ⟨0, i⟩ = WaveletOctree.cpath m.config.treeHeight i := by
      unfold WaveletOctree.path WaveletOctree.cpath
      rw [toInternal_eq m _ hn]
      simp only [Int.toNat_zero, Nat.sub_zero]
      rw [nodePath_cell h.le (WaveletOctree.shift_range h.pos hi)]
    unfold WaveletOctree.addToNodeValue
    dsimp only
    rw [hp, WTree.addPath_getValue _ h.root]
    simp
  obtain ⟨u', hu⟩ := C17_write_local m h.le m.getCellValue (fun _ _ => rfl) h.root (.add ⟨0, i⟩ u) hn
  have hreg : ∀ j, NodeRegion (WaveletOp.add ⟨0, i⟩ u).node j ↔ j = i := by
    intro j
    constructor
    · intro hr; funext k; have := hr k; simp only [WaveletOp.node, Int.toNat_zero, pow_zero, mul_one] at this; omega
    · rintro rfl k; simp [WaveletOp.node]
  have hi' := hu i hi
  rw [if_pos ((hreg i).2 rfl)] at hi'
  have huu : u' = u := by
    have : (WaveletOp.add ⟨0, i⟩ u).run m = m.addToNodeValue ⟨0, i⟩ u := rfl
    rw [this, h3] at hi'
    linarith
  rw [hadd]
  refine (hu j hj).trans ?_
  rw [huu]
  simp only [hreg]

namespace AnyMap

theorem Mapped.add {m : AnyMap} (h : m.Mapped) (now : ℚ) {i : Index 3} (hi : m.Covers i) (u : ℚ) : (m.addToCellValue now i u).Mapped ∧
    (m.addToCellValue now i u).Covers = m.Covers ∧ (m.addToCellValue now i u).combine = m.combine ∧
    ∀ j, m.Covers j → (m.addToCellValue now i u).cell j = if j = i then m.combine (m.cell j) u else m.cell j := by
  cases m with
  | hashedBlocks m =>
    obtain ⟨config, dv, ops, hc, hr⟩ := h
    have hw : m.Wf := by rw [← hr]; exact C22_hashed_blocks_reachable config dv ops
    have hcfg : m.config = config := by
      rw [← hr]
      clear hr hw
      have : ∀ (ops : List HashedBlocksOp) (m : HashedBlocks), (ops.foldl HashedBlocksOp.run m).config = m.config := by
        intro ops
        induction ops with
        | nil => intro m; rfl
        | cons o ops ih => intro m; rw [List.foldl_cons, ih, (HashedBlocks.run_config m o).1]
      exact this _ _
    have hlo : m.config.minLogOdds ≤ m.config.maxLogOdds := by
      rw [hcfg]; simp only [MapBaseConfig.isValid, Bool.and_eq_true, decide_eq_true_eq] at hc; exact hc.2.le
    refine ⟨⟨config, dv, ops ++ [HashedBlocksOp.add i u], hc, by rw [List.foldl_append, hr]; rfl⟩, rfl, rfl, fun j _ => ?_⟩
    have := HashedBlocks.run_spec hw hlo (.add i u) j
    refine this.trans ?_
    show (if j = i then _ else _) = _
    split
    · next e => subst e; rfl
    · rfl
  | waveletOctree m =>
    have hinv := (WaveletOctree.Mapped.inv h).1
    refine ⟨?_, rfl, rfl, fun j hj => WaveletOctree.Inv.getCellValue_add hinv hi u hj⟩
    obtain ⟨config, hc, hH, ops, hops, hr⟩ := h
    have hw : 0 < config.minCellWidth := by
      simp only [WaveletOctreeConfig.isValid, Bool.and_eq_true, decide_eq_true_eq] at hc
      exact hc.1.1
    obtain ⟨m', h1, _, h3⟩ := WaveletOctree.Inv.mapped_runs ops (.create config) (.create hc hH) hw hops
    rw [hr] at h1
    obtain rfl : m = m' := Option.some.inj h1
    have hi' : CellInMap config.treeHeight i := by
      have : m.config = config := h3
      rw [← this]; exact hi
    have hadd : m.addToCellValue i u = m.addToNodeValue ⟨0, i⟩ u := by
      unfold WaveletOctree.addToCellValue; rw [indexAndHeight_zero]
    refine ⟨config, hc, hH, ops ++ [WaveletMappingOp.op (.write (.add ⟨0, i⟩ u))], ?_, ?_⟩
    · intro o ho
      rcases List.mem_append.1 ho with ho | ho
      · exact hops o ho
      · rw [List.mem_singleton] at ho
        subst ho
        exact cell_nodeInMap (by have := hinv.pos; rw [show m.config = config from h3] at this; exact this) hi'
    · rw [List.foldlM_append, hr]
      show some _ = some _
      rw [hadd]
      rfl
  | hashedWavelet m =>
    refine ⟨HashedWaveletOctree.Mapped.step h (o := .op (.write (.add i u now))) trivial rfl, rfl, rfl, fun j _ => ?_⟩
    exact (HashedWaveletOctree.Mapped.sound h).getCellValue_add i u now j
  | hashedChunked c =>
    obtain ⟨m, hrel, hs, _⟩ := HashedChunkedWaveletOctree.Mapped.shadow h
    obtain ⟨c', e, hrel'⟩ := hrel.step hs.shaped (.write (.add i u now))
    have hc' : c' = c.addToCellValue i u now := (Option.some.inj e).symm
    subst hc'
    refine ⟨?_, rfl, rfl, fun j _ => ?_⟩
    · obtain ⟨config, hc, hH, ops, ho, hm⟩ := h
      refine ⟨config, hc, hH, ops ++ [MappingOp.op (.write (.add i u now))], ?_, ?_⟩
      · intro o ho'
        rcases List.mem_append.1 ho' with ho' | ho'
        · exact ho o ho'
        · rw [List.mem_singleton] at ho'
          subst ho'
          trivial
      · rw [List.foldlM_append, hm]
        rfl
    · show (c.addToCellValue i u now).getCellValue j = if j = i then c.getCellValue j + u else c.getCellValue j
      rw [hrel'.get, hrel.get]
      exact hs.getCellValue_add i u now j
  | volumetricOctree m => exact h.elim

theorem Mapped.writeCells (ws : List CellWrite) : ∀ {m : AnyMap}, m.Mapped → (∀ w ∈ ws, m.Covers w.index) →
    (m.writeCells ws).Mapped ∧ (m.writeCells ws).Covers = m.Covers ∧ (m.writeCells ws).combine = m.combine ∧
    ∀ j, m.Covers j → (m.writeCells ws).cell j =
      ((ws.filter fun w => decide (w.index = j)).map CellWrite.update).foldl m.combine (m.cell j) := by
  induction ws with
  | nil => intro m h _; exact ⟨h, rfl, rfl, fun j _ => rfl⟩
  | cons w ws ih =>
    intro m h hc
    obtain ⟨a1, a2, a3, a4⟩ := h.add w.now (hc w List.mem_cons_self) w.update
    obtain ⟨b1, b2, b3, b4⟩ := ih a1 (fun w' hw' => by rw [a2]; exact hc w' (List.mem_cons_of_mem _ hw'))
    refine ⟨b1, b2.trans a2, b3.trans a3, fun j hj => ?_⟩
    have := b4 j (by rw [a2]; exact hj)
    refine this.trans ?_
    rw [a3, a4 j hj, List.filter_cons]
    by_cases e : w.index = j
    · rw [if_pos e.symm, decide_eq_true e, if_pos rfl]
      rfl
    · rw [if_neg (fun h => e h.symm), decide_eq_false e, if_neg (by decide)]

end AnyMap

theorem filter_nodup_single {α : Type} [DecidableEq α] (l : List α) (h : l.Nodup) (j : α) : l.filter (fun i => decide (i = j)) = if j ∈ l then [j] else [] := by
  induction l with
  | nil => rfl
  | cons a l ih =>
    rw [List.nodup_cons] at h
    rw [List.filter_cons, ih h.2]
    by_cases e : a = j
    · subst e
      simp [h.1]
    · have : (j ∈ a :: l) ↔ j ∈ l := by simp [List.mem_cons, Ne.symm e]
      simp only [decide_eq_false e, this]
      rfl

theorem filter_filterMap_index (update now : Index 3 → ℚ) (j : Index 3) (l : List (Index 3)) :
    ((l.filterMap fun i => if kEpsilon < |update i| then some (⟨i, update i, now i⟩ : CellWrite) else none).filter fun w => decide (w.index = j)) =
      (l.filter fun i => decide (i = j)).filterMap fun i => if kEpsilon < |update i| then some (⟨i, update i, now i⟩ : CellWrite) else none := by
  induction l with
  | nil => rfl
  | cons a l ih =>
    rw [List.filterMap_cons, List.filter_cons]
    by_cases e1 : kEpsilon < |update a| <;> by_cases e2 : a = j
    · simp only [if_pos e1, decide_eq_true e2, if_true, List.filter_cons, List.filterMap_cons, ih]
    · simp only [if_pos e1, decide_eq_false e2, List.filter_cons, ih]
      rfl
    · simp only [if_neg e1, decide_eq_true e2, if_true, List.filterMap_cons, ih]
    · simp only [if_neg e1, decide_eq_false e2, ih]
      rfl

namespace VolumetricOctree

theorem LeafValue.trans_leaf {m : VolumetricOctree} {j : Index 3} {v v' : ℚ} (h : m.LeafValue j v) (e : v = v') : m.LeafValue j v' := e ▸ h

theorem Summed.writeCells (ws : List CellWrite) : ∀ {m : VolumetricOctree}, m.Summed → m.root.hasChildrenArray = true →
    (∀ w ∈ ws, CellInMap m.config.treeHeight w.index) →
    ∃ m', (AnyMap.volumetricOctree m).writeCells ws = .volumetricOctree m' ∧ m'.Summed ∧ m'.config = m.config ∧
    ∀ j, CellInMap m.config.treeHeight j → m'.LeafValue j
      (m.sumValue j + ((ws.filter fun w => decide (w.index = j)).map CellWrite.update).sum) := by
  induction ws with
  | nil => intro m h ha _; exact ⟨m, rfl, h, rfl, fun j hj => (h.leaves ha hj).trans_leaf (by simp)⟩
  | cons w ws ih =>
    intro m h ha hc
    have hi := hc w List.mem_cons_self
    have hn := cell_nodeInMap h.pos hi
    have hadd : m.addToCellValue w.index w.update = m.addToNodeValue ⟨0, w.index⟩ w.update := by
      unfold addToCellValue; rw [indexAndHeight_zero]
    obtain ⟨a1, a2⟩ := h.add hn w.update
    have ha' : (m.addToNodeValue ⟨0, w.index⟩ w.update).root.hasChildrenArray = true := by
      have hroot : (m.addToNodeValue ⟨0, w.index⟩ w.update).root =
        VTree.write (· + w.update) m.root (nodePath m.config.treeHeight (m.toInternal ⟨0, w.index⟩)) := rfl
      have ht : NodeInTree m.config.treeHeight (m.toInternal ⟨0, w.index⟩) := toInternal_inTree m.shadow _ hn
      have hlen : (nodePath m.config.treeHeight (m.toInternal ⟨0, w.index⟩)).length = m.config.treeHeight := by
        rw [nodePath_length ht]
        show ((m.config.treeHeight : Int) - 0).toNat = _
        omega
      rw [hroot]
      have hp := h.pos
      cases hq : nodePath m.config.treeHeight (m.toInternal ⟨0, w.index⟩) with
      | nil => rw [hq] at hlen; rw [List.length_nil] at hlen; omega
      | cons i q => rw [VTree.write_cons _ _ h.root]; exact NTree.setChild_hasArray _ h.root _ _
    obtain ⟨m', b1, b2, b3, b4⟩ := ih a1 ha' (fun w' hw' => hc w' (List.mem_cons_of_mem _ hw'))
    refine ⟨m', ?_, b2, b3, fun j hj => (b4 j hj).trans_leaf ?_⟩
    · rw [← b1, ← hadd]; rfl
    · have hreg : NodeRegion ⟨0, w.index⟩ j ↔ w.index = j := by
        constructor
        · intro hr; funext k; have := hr k; simp only [Int.toNat_zero, pow_zero, mul_one] at this; omega
        · rintro rfl k; simp
      rw [a2 j hj, List.filter_cons]
      simp only [hreg]
      by_cases e : w.index = j
      · rw [if_pos e, decide_eq_true e, if_pos rfl, List.map_cons, List.sum_cons]; ring
      · rw [if_neg e, decide_eq_false e, if_neg (by decide), add_zero]

end VolumetricOctree

/-! ## The change of each cell -/

/-- Integrating a measurement adds, to each cell of the box whose update is not almost zero, that update, once, and changes nothing else. The
result is again a map that results from a sequence of operations, so this holds for the next measurement too. -/
theorem C66_cells (m : AnyMap) (hm : m.Mapped) (mn mx : Index 3) (hv : ∀ k, mn k ≤ mx k)
    (hcov : ∀ i, (∀ k, mn k ≤ i k ∧ i k ≤ mx k) → m.Covers i) (update now : Index 3 → ℚ) :
    ∃ m', fixedUpdateMap mn mx update now m = some m' ∧ m'.Mapped ∧ ∀ j, m.Covers j → m'.cell j =
      if (∀ k, mn k ≤ j k ∧ j k ≤ mx k) ∧ kEpsilon < |update j| then m.combine (m.cell j) (update j) else m.cell j := by
  obtain ⟨l, hl, hnd, hmem⟩ := gridIndices_spec mn mx hv
  unfold fixedUpdateMap
  rw [hl]
  obtain ⟨a1, _, _, a4⟩ := hm.writeCells (l.filterMap fun i => if kEpsilon < |update i| then some (⟨i, update i, now i⟩ : CellWrite) else none)
    (by
      intro w hw
      obtain ⟨i, hi, he⟩ := List.mem_filterMap.1 hw
      split at he
      · injection he with he
        subst he
        exact hcov i ((hmem i).1 hi)
      · cases he)
  refine ⟨_, rfl, a1, fun j hj => ?_⟩
  refine (a4 j hj).trans ?_
  have hf : ((l.filterMap fun i => if kEpsilon < |update i| then some (⟨i, update i, now i⟩ : CellWrite) else none).filter fun w => decide (w.index = j)) =
      (l.filter fun i => decide (i = j)).filterMap fun i => if kEpsilon < |update i| then some (⟨i, update i, now i⟩ : CellWrite) else none := filter_filterMap_index update now j l
  rw [hf, filter_nodup_single l hnd]
  by_cases hin : j ∈ l
  · rw [if_pos hin]
    by_cases he : kEpsilon < |update j|
    · rw [if_pos ⟨(hmem j).1 hin, he⟩, List.filterMap_cons, if_pos he]
      rfl
    · rw [if_neg (fun h => he h.2), List.filterMap_cons, if_neg he]
      rfl
  · rw [if_neg hin, if_neg (fun h => hin ((hmem j).2 h.1))]
    rfl


/-- The same for a volumetric octree: the leaf that reports a cell's value has it changed by the update, if any. (Reading the cell instead is subject to
`C65_cell_values_fails`.) -/
theorem C66_volumetric (config : VolumetricOctreeConfig) (hpos : 0 < config.treeHeight) (hH : config.treeHeight ≤ 20)
    (h0 : config.minLogOdds ≤ 0) (h1 : 0 ≤ config.maxLogOdds) (ops : List CoarseOp) (hops : ∀ o ∈ ops, o.InMap config.treeHeight)
    (m : VolumetricOctree) (hm : ops.foldlM CoarseOp.run (.create config) = some m) (ha : m.root.hasChildrenArray = true)
    (mn mx : Index 3) (hv : ∀ k, mn k ≤ mx k) (hcov : ∀ i, (∀ k, mn k ≤ i k ∧ i k ≤ mx k) → CellInMap config.treeHeight i)
    (update now : Index 3 → ℚ) :
    ∃ m', fixedUpdateMap mn mx update now (.volumetricOctree m) = some (.volumetricOctree m') ∧ ∀ j, CellInMap config.treeHeight j → ∃ v, m.LeafValue j v ∧
      m'.LeafValue j (if (∀ k, mn k ≤ j k ∧ j k ≤ mx k) ∧ kEpsilon < |update j| then v + update j else v) := by
  obtain ⟨m0, r1, r2, r3⟩ := VolumetricOctree.Holds.runs ops (.create config) _ 0 (VolumetricOctree.create_holds hpos hH) h0 h1 hops
  rw [hm] at r1
  obtain rfl : m = m0 := Option.some.inj r1
  have hcfg : m.config = config := r2
  have hs := r3.toSummed
  obtain ⟨l, hl, hnd, hmem⟩ := gridIndices_spec mn mx hv
  unfold fixedUpdateMap
  rw [hl]
  obtain ⟨m', e, b1, b2, b3⟩ := VolumetricOctree.Summed.writeCells
    (l.filterMap fun i => if kEpsilon < |update i| then some (⟨i, update i, now i⟩ : CellWrite) else none) hs ha
    (by
      intro w hw
      obtain ⟨i, hi, he⟩ := List.mem_filterMap.1 hw
      split at he
      · injection he with he
        subst he
        rw [hcfg]
        exact hcov i ((hmem i).1 hi)
      · cases he)
  refine ⟨m', congrArg some e, fun j hj => ⟨m.sumValue j, hs.leaves ha (by rw [hcfg]; exact hj), ?_⟩⟩
  have b4 := b3 j (by rw [hcfg]; exact hj)
  rw [filter_filterMap_index, filter_nodup_single l hnd] at b4
  refine b4.trans_leaf ?_
  by_cases hin : j ∈ l
  · rw [if_pos hin]
    by_cases he : kEpsilon < |update j|
    · rw [if_pos ⟨(hmem j).1 hin, he⟩, List.filterMap_cons, if_pos he]
      simp
    · rw [if_neg (fun h => he h.2), List.filterMap_cons, if_neg he]
      simp
  · rw [if_neg hin, if_neg (fun h => hin ((hmem j).2 h.1))]
    simp

/-! ## The box -/

/-- The range image is the one that the other integrators use. -/
theorem C66_same_image (P : Projector) (minRange maxRange : ℝ) (R : Fin 3 → Vec3) (t : Vec3) (big padding : ℝ) (st : RangeState)
    (cloud : List CloudPoint) : (fixedImportPointcloud P minRange maxRange R t big padding st cloud).1 = importPointcloud P minRange st cloud := by
  unfold fixedImportPointcloud importPointcloud
  dsimp only
  generalize (⟨st.range.setToConstant st.initial, st.initial, st.offset.setToConstant (0, 0)⟩ : RangeState) = s0
  generalize (RBox.empty big).includePoint t = b0
  induction cloud generalizing s0 b0 with
  | nil => rfl
  | cons p cloud ih =>
    rw [List.foldl_cons, List.foldl_cons]
    exact ih _ _

/-- A cell whose center is in the box is visited, and every visited cell's center is less than one cell outside the box. -/
theorem C66_box_cells (b : RBox) (w : ℝ) (hw : 0 < w) (i : Index 3) : (b.Contains (cellCenter w i) → b.Visits w i) ∧
    (b.Visits w i → ∀ k, b.min k - w < cellCenter w i k ∧ cellCenter w i k < b.max k + w) := by
  have e1 : ∀ x : ℝ, x * (1 / w) * w = x := fun x => by field_simp
  constructor
  · intro h k
    obtain ⟨h1, h2⟩ := h k
    unfold cellCenter at h1 h2
    have a1 : b.min k * (1 / w) ≤ (i k : ℝ) + 1 / 2 := by
      refine le_of_mul_le_mul_right ?_ hw
      rw [e1]; exact h1
    have a2 : (i k : ℝ) + 1 / 2 ≤ b.max k * (1 / w) := by
      refine le_of_mul_le_mul_right ?_ hw
      rw [e1]; exact h2
    constructor
    · have : ((b.minIndex w k : Int) : ℝ) ≤ i k := (Int.floor_le _).trans (by linarith)
      exact_mod_cast this
    · have : ((i k : Int) : ℝ) ≤ (b.maxIndex w k : Int) := le_trans (by linarith) (Int.le_ceil _)
      exact_mod_cast this
  · intro h k
    obtain ⟨h1, h2⟩ := h k
    have a1 : b.min k * (1 / w) - 1 / 2 < ((b.minIndex w k : Int) : ℝ) + 1 := Int.lt_floor_add_one _
    have a2 : ((b.maxIndex w k : Int) : ℝ) < b.max k * (1 / w) - 1 / 2 + 1 := Int.ceil_lt_add_one _
    have h1' : ((b.minIndex w k : Int) : ℝ) ≤ (i k : ℝ) := by exact_mod_cast h1
    have h2' : (i k : ℝ) ≤ ((b.maxIndex w k : Int) : ℝ) := by exact_mod_cast h2
    unfold cellCenter
    constructor
    · have := mul_lt_mul_of_pos_right (show b.min k * (1 / w) < (i k : ℝ) + 1 / 2 + 1 by linarith) hw
      rw [e1] at this
      linarith
    · have := mul_lt_mul_of_pos_right (show (i k : ℝ) + 1 / 2 < b.max k * (1 / w) + 1 by linarith) hw
      rw [add_mul (b.max k * (1 / w)), e1] at this
      linarith

theorem importPoint_bounds (P : Projector) (minRange : ℝ) (st : RangeState) (p : CloudPoint) (i : Idx2) :
    (importPoint P minRange st p).range.inBounds i = st.range.inBounds i := by
  unfold importPoint
  split
  · rfl
  · split
    · dsimp only
      split
      · rfl
      · split
        · rfl
        · rfl
    · rfl

theorem RBox.includePoint_grows (b : RBox) (q : Vec3) {p : Vec3} (h : b.Contains p) : (b.includePoint q).Contains p := fun k =>
  ⟨(min_le_left _ _).trans (h k).1, (h k).2.trans (le_max_left _ _)⟩

theorem RBox.includePoint_self (b : RBox) (q : Vec3) : (b.includePoint q).Contains q := fun _ => ⟨min_le_right _ _, le_max_right _ _⟩

theorem boxPoint_congr (P : Projector) (R : Fin 3 → Vec3) (t : Vec3) (maxRange : ℝ) {r r' : Image ℝ} (h : ∀ i, r.inBounds i = r'.inBounds i) (p : CloudPoint) :
    boxPoint P R t maxRange r p = boxPoint P R t maxRange r' p := by
  unfold boxPoint
  cases p with
  | none => rfl
  | some q => simp only [h]

theorem fixedImport_fold (P : Projector) (minRange maxRange : ℝ) (R : Fin 3 → Vec3) (t : Vec3) (cloud : List CloudPoint) : ∀ st : RangeState × RBox,
    (∀ p, st.2.Contains p → (cloud.foldl (fixedImportPoint P minRange maxRange R t) st).2.Contains p) ∧
    ∀ p ∈ cloud, ∀ q, boxPoint P R t maxRange st.1.range p = some q → (cloud.foldl (fixedImportPoint P minRange maxRange R t) st).2.Contains q := by
  induction cloud with
  | nil => intro st; exact ⟨fun _ h => h, fun _ h => nomatch h⟩
  | cons p cloud ih =>
    intro st
    obtain ⟨h1, h2⟩ := ih (fixedImportPoint P minRange maxRange R t st p)
    rw [List.foldl_cons]
    constructor
    · intro x hx
      refine h1 x ?_
      unfold fixedImportPoint
      cases boxPoint P R t maxRange st.1.range p with
      | none => exact hx
      | some q => exact RBox.includePoint_grows _ _ hx
    · intro p' hp' q hq
      rcases List.mem_cons.1 hp' with rfl | hp'
      · refine h1 q ?_
        unfold fixedImportPoint
        rw [hq]
        exact RBox.includePoint_self _ _
      · refine h2 p' hp' q ?_
        rw [← hq]
        exact boxPoint_congr P R t maxRange (fun i => importPoint_bounds P minRange st.1 p i) p'

/-- The box contains the beam to every valid point of the cloud that falls into the image, up to the maximum range, and what is within the padding of it in
each coordinate. In particular it is not empty. -/
theorem C66_cloud_box (P : Projector) (minRange maxRange : ℝ) (R : Fin 3 → Vec3) (t : Vec3) (big padding : ℝ) (hpad : 0 ≤ padding) (st : RangeState)
    (cloud : List CloudPoint) (x y z : ℝ) (hp : some (x, y, z) ∈ cloud) (hvalid : isMeasurementValid (some (x, y, z)) = true)
    (hin : st.range.inBounds (P.grid.nearestIndex (P.cartesianToSensor (x, y, z)).u (P.cartesianToSensor (x, y, z)).v) = true)
    (s : ℝ) (hs0 : 0 ≤ s) (hs1 : s ≤ 1) (d : Vec3) (hd : ∀ k, |d k| ≤ padding) :
    let e := fromSensorFrame R t (endPointOrMaxRange (fun _ => 0) ![x, y, z] (P.cartesianToSensor (x, y, z)).depth maxRange)
    let b := (fixedImportPointcloud P minRange maxRange R t big padding st cloud).2
    b.Contains (fun k => t k + s * (e k - t k) + d k) ∧ ∀ w, 0 < w → ∀ k, b.minIndex w k ≤ b.maxIndex w k := by
  intro e b
  have hq : boxPoint P R t maxRange (st.range.setToConstant st.initial) (some (x, y, z)) = some e := by
    unfold boxPoint
    dsimp only
    rw [if_pos hvalid]
    exact if_pos hin
  obtain ⟨f1, f2⟩ := fixedImport_fold P minRange maxRange R t cloud
    ({ st with range := st.range.setToConstant st.initial, offset := st.offset.setToConstant (0, 0) }, (RBox.empty big).includePoint t)
  have ht := f1 t (RBox.includePoint_self _ t)
  have he := f2 _ hp e hq
  have key : b.Contains (fun k => t k + s * (e k - t k) + d k) := by
    intro k
    obtain ⟨a1, a2⟩ := ht k
    obtain ⟨a3, a4⟩ := he k
    have a5 := abs_le.1 (hd k)
    have a6 : 0 ≤ 1 - s := by linarith
    have b1 := mul_le_mul_of_nonneg_left a1 a6
    have b2 := mul_le_mul_of_nonneg_left a2 a6
    have b3 := mul_le_mul_of_nonneg_left a3 hs0
    have b4 := mul_le_mul_of_nonneg_left a4 hs0
    show _ - padding ≤ _ ∧ _ ≤ _ + padding
    constructor <;> linarith
  refine ⟨key, fun w hw k => ?_⟩
  have h1 : b.min k ≤ b.max k := (key k).1.trans (key k).2
  have h2 : b.min k * (1 / w) ≤ b.max k * (1 / w) := mul_le_mul_of_nonneg_right h1 (by positivity)
  have h3 : ((b.minIndex w k : Int) : ℝ) ≤ (b.maxIndex w k : Int) := (Int.floor_le _).trans (le_trans (by linarith) (Int.le_ceil _))
  exact_mod_cast h3


theorem fromSensor_toSensor {R : Fin 3 → Vec3} (hR : IsOrthogonal R) (t x : Vec3) : fromSensorFrame R t (toSensorFrame R t x) = x := by
  funext k
  unfold fromSensorFrame toSensorFrame
  have h0 := hR k 0
  have h1 := hR k 1
  have h2 := hR k 2
  have e : R 0 k * (R 0 0 * (x 0 - t 0) + R 0 1 * (x 1 - t 1) + R 0 2 * (x 2 - t 2)) +
      R 1 k * (R 1 0 * (x 0 - t 0) + R 1 1 * (x 1 - t 1) + R 1 2 * (x 2 - t 2)) +
      R 2 k * (R 2 0 * (x 0 - t 0) + R 2 1 * (x 1 - t 1) + R 2 2 * (x 2 - t 2)) + t k =
      (R 0 k * R 0 0 + R 1 k * R 1 0 + R 2 k * R 2 0) * (x 0 - t 0) + (R 0 k * R 0 1 + R 1 k * R 1 1 + R 2 k * R 2 1) * (x 1 - t 1) +
      (R 0 k * R 0 2 + R 1 k * R 1 2 + R 2 k * R 2 2) * (x 2 - t 2) + t k := by ring
  rw [e, h0, h1, h2]
  fin_cases k <;> simp

/-- A rotated vector's coordinates are at most its length. -/
theorem rotated_le {R : Fin 3 → Vec3} (hR : IsOrthogonal R) (d : Vec3) {c : ℝ} (hc : 0 ≤ c) (hd : d 0 ^ 2 + d 1 ^ 2 + d 2 ^ 2 ≤ c ^ 2) (k : Fin 3) :
    |R 0 k * d 0 + R 1 k * d 1 + R 2 k * d 2| ≤ c := by
  have h := hR k k
  rw [if_pos rfl] at h
  refine abs_le_of_sq_le_sq ?_ hc
  have e : (R 0 k * d 0 + R 1 k * d 1 + R 2 k * d 2) ^ 2 + ((R 0 k * d 1 - R 1 k * d 0) ^ 2 + (R 0 k * d 2 - R 2 k * d 0) ^ 2 +
      (R 1 k * d 2 - R 2 k * d 1) ^ 2) = (R 0 k * R 0 k + R 1 k * R 1 k + R 2 k * R 2 k) * (d 0 ^ 2 + d 1 ^ 2 + d 2 ^ 2) := by ring
  rw [h, one_mul] at e
  nlinarith [sq_nonneg (R 0 k * d 1 - R 1 k * d 0), sq_nonneg (R 0 k * d 2 - R 2 k * d 0), sq_nonneg (R 1 k * d 2 - R 2 k * d 1)]

/-- For a sensor that measures distances: every cell whose center `c` (in the sensor's frame) is no farther than the return and the maximum range, and whose
direction differs from the return's by no more than the padding angle, is visited. -/
theorem C66_beam_covered (P : Projector) (minRange maxRange : ℝ) (R : Fin 3 → Vec3) (hR : IsOrthogonal R) (t : Vec3) (big paddingAngle paddingBack : ℝ)
    (hmax : 0 < maxRange) (hsin : 0 ≤ Real.sin paddingAngle) (hcos : 0 ≤ Real.cos paddingAngle) (st : RangeState)
    (cloud : List CloudPoint) (x y z : ℝ) (hp : some (x, y, z) ∈ cloud) (hvalid : isMeasurementValid (some (x, y, z)) = true)
    (hin : st.range.inBounds (P.grid.nearestIndex (P.cartesianToSensor (x, y, z)).u (P.cartesianToSensor (x, y, z)).v) = true)
    (hdepth : 0 ≤ (P.cartesianToSensor (x, y, z)).depth) (hdist : (P.cartesianToSensor (x, y, z)).depth ^ 2 = x ^ 2 + y ^ 2 + z ^ 2)
    (w : ℝ) (hw : 0 < w) (i : Index 3) (distance : ℝ) (hd0 : 0 ≤ distance)
    (hd : let c := toSensorFrame R t (cellCenter w i); distance ^ 2 = c 0 ^ 2 + c 1 ^ 2 + c 2 ^ 2)
    (hret : distance ≤ (P.cartesianToSensor (x, y, z)).depth) (hrange : distance ≤ maxRange)
    (hangle : let c := toSensorFrame R t (cellCenter w i);
      Real.cos paddingAngle * (distance * (P.cartesianToSensor (x, y, z)).depth) ≤ c 0 * x + c 1 * y + c 2 * z) :
    (fixedImportPointcloud P minRange maxRange R t big (lateralPadding paddingAngle paddingBack maxRange) st cloud).2.Visits w i := by
  refine (C66_box_cells _ w hw i).1 ?_
  generalize hcdef : toSensorFrame R t (cellCenter w i) = c at hd hangle
  dsimp only at hd hangle
  have hxw : cellCenter w i = fromSensorFrame R t c := by rw [← hcdef, fromSensor_toSensor hR]
  generalize hn : (P.cartesianToSensor (x, y, z)).depth = n at hdepth hdist hret hangle
  have hn0 : 0 < n := by
    refine lt_of_le_of_ne hdepth fun e => ?_
    rw [← e] at hdist
    have hv := hvalid
    unfold isMeasurementValid at hv
    dsimp only at hv
    rw [if_pos (by nlinarith)] at hv
    cases hv
  have hpad : 0 ≤ lateralPadding paddingAngle paddingBack maxRange := le_trans (mul_nonneg hsin hmax.le) (le_max_left _ _)
  -- the length of the truncated beam
  obtain ⟨m, hm0, hmle, hm1, hend⟩ : ∃ m : ℝ, 0 < m ∧ distance ≤ m ∧ m ≤ maxRange ∧
      ∀ k, endPointOrMaxRange (fun _ => 0) ![x, y, z] n maxRange k = m / n * (![x, y, z] : Vec3) k := by
    unfold endPointOrMaxRange
    by_cases h : maxRange < n
    · exact ⟨maxRange, hmax, hrange, le_refl _, fun k => by rw [if_pos h]; ring⟩
    · exact ⟨n, hn0, hret, not_lt.1 h, fun k => by rw [if_neg h, div_self hn0.ne', one_mul]⟩
  -- the foot of the cell's center on the beam
  set L := (c 0 * x + c 1 * y + c 2 * z) / n with hL
  have hLn : L * n = c 0 * x + c 1 * y + c 2 * z := by rw [hL, div_mul_cancel₀ _ hn0.ne']
  have hLlow : Real.cos paddingAngle * distance ≤ L := by
    rw [hL, le_div_iff₀ hn0, mul_assoc]
    exact hangle
  have hL0 : 0 ≤ L := le_trans (mul_nonneg hcos hd0) hLlow
  have hLd : L ≤ distance := by
    refine le_trans (le_abs_self _) (abs_le_of_sq_le_sq ?_ hd0)
    have e : (c 0 * x + c 1 * y + c 2 * z) ^ 2 + ((c 0 * y - c 1 * x) ^ 2 + (c 0 * z - c 2 * x) ^ 2 + (c 1 * z - c 2 * y) ^ 2) =
      (c 0 ^ 2 + c 1 ^ 2 + c 2 ^ 2) * (x ^ 2 + y ^ 2 + z ^ 2) := by ring
    rw [← hLn, ← hd, ← hdist] at e
    have : (L * n) ^ 2 ≤ distance ^ 2 * n ^ 2 := by
      nlinarith [sq_nonneg (c 0 * y - c 1 * x), sq_nonneg (c 0 * z - c 2 * x), sq_nonneg (c 1 * z - c 2 * y)]
    rw [mul_pow] at this
    exact le_of_mul_le_mul_right this (by positivity)
  let d : Vec3 := fun k => c k - L / n * (![x, y, z] : Vec3) k
  have hdlen : d 0 ^ 2 + d 1 ^ 2 + d 2 ^ 2 ≤ (Real.sin paddingAngle * maxRange) ^ 2 := by
    have e : d 0 ^ 2 + d 1 ^ 2 + d 2 ^ 2 = (c 0 ^ 2 + c 1 ^ 2 + c 2 ^ 2) - 2 * (L / n) * (c 0 * x + c 1 * y + c 2 * z) + (L / n) ^ 2 * (x ^ 2 + y ^ 2 + z ^ 2) := by
      show (c 0 - L / n * x) ^ 2 + (c 1 - L / n * y) ^ 2 + (c 2 - L / n * z) ^ 2 = _
      ring
    rw [e, ← hd, ← hdist, ← hLn]
    have e2 : distance ^ 2 - 2 * (L / n) * (L * n) + (L / n) ^ 2 * n ^ 2 = distance ^ 2 - L ^ 2 := by
      field_simp; ring
    rw [e2]
    have h1 : (Real.cos paddingAngle * distance) ^ 2 ≤ L ^ 2 := pow_le_pow_left₀ (mul_nonneg hcos hd0) hLlow 2
    have h2 := Real.sin_sq_add_cos_sq paddingAngle
    have h3 : distance ^ 2 ≤ maxRange ^ 2 := pow_le_pow_left₀ hd0 hrange 2
    have h4 : 0 ≤ Real.sin paddingAngle ^ 2 := sq_nonneg _
    have h5 := mul_le_mul_of_nonneg_left h3 h4
    have h6 : distance ^ 2 = (Real.sin paddingAngle ^ 2 + Real.cos paddingAngle ^ 2) * distance ^ 2 := by rw [h2, one_mul]
    rw [mul_pow] at h1 ⊢
    linarith
  have hrot := rotated_le hR d (mul_nonneg hsin hmax.le) hdlen
  have key := (C66_cloud_box P minRange maxRange R t big _ hpad st cloud x y z hp hvalid hin (L / m) (by positivity)
    (by rw [div_le_one hm0]; linarith) (fun k => R 0 k * d 0 + R 1 k * d 1 + R 2 k * d 2) (fun k => (hrot k).trans (le_max_left _ _))).1
  rw [hn] at key
  have e : cellCenter w i = fun k => t k + L / m * (fromSensorFrame R t (endPointOrMaxRange (fun _ => 0) ![x, y, z] n maxRange) k - t k) +
      (R 0 k * d 0 + R 1 k * d 1 + R 2 k * d 2) := by
    rw [hxw]
    funext k
    unfold fromSensorFrame
    rw [hend 0, hend 1, hend 2]
    show _ = _ + (R 0 k * (c 0 - L / n * x) + R 1 k * (c 1 - L / n * y) + R 2 k * (c 2 - L / n * z))
    show _ = t k + L / m * (R 0 k * (m / n * x) + R 1 k * (m / n * y) + R 2 k * (m / n * z) + t k - t k) + _
    field_simp
    ring
  rw [e]
  exact key

/-- For a pinhole camera's range image: every cell whose center is in front of the camera, up to the maximum range, and projects into the image at
`0 ≤ u ≤ width`, `0 ≤ v ≤ height` is visited. (The pixels' area starts at `u = -1/2`: `C66_frustum_fails`.) -/
theorem C66_frustum_partial (c : PinholeConfig) (hc : c.Valid) (maxRange : ℝ) (R : Fin 3 → Vec3) (hR : IsOrthogonal R) (t : Vec3) (big padding : ℝ)
    (hmax : 0 < maxRange) (hpad : 0 ≤ padding) (st : RangeState) (input : Image ℝ) (hrows : input.rows = c.width) (hcols : input.cols = c.height)
    (initial w : ℝ) (hw : 0 < w) (i : Index 3)
    (hz : let s := c.cartesianToSensor (toSensorFrame R t (cellCenter w i)); PinholeConfig.epsilon ≤ s.depth ∧ s.depth ≤ maxRange)
    (hu : let s := c.cartesianToSensor (toSensorFrame R t (cellCenter w i)); 0 ≤ s.u ∧ s.u ≤ c.width)
    (hv : let s := c.cartesianToSensor (toSensorFrame R t (cellCenter w i)); 0 ≤ s.v ∧ s.v ≤ c.height) :
    (fixedImportRangeImage PinholeConfig.grid c.sensorToCartesian maxRange R t big padding st input initial).2.Visits w i := by
  refine (C66_box_cells _ w hw i).1 ?_
  generalize hp : toSensorFrame R t (cellCenter w i) = p at hz hu hv
  have hxw : cellCenter w i = fromSensorFrame R t p := by rw [← hp, fromSensor_toSensor hR]
  obtain ⟨hW, hH, hfx, hfy⟩ := hc
  have hW' : (0 : ℝ) < c.width := by exact_mod_cast hW
  have hH' : (0 : ℝ) < c.height := by exact_mod_cast hH
  dsimp only at hz hu hv
  have hz' : PinholeConfig.epsilon ≤ p 2 ∧ p 2 ≤ maxRange := hz
  have heps : (0 : ℝ) < PinholeConfig.epsilon := by unfold PinholeConfig.epsilon; norm_num
  have hp2 : 0 < p 2 := lt_of_lt_of_le heps hz'.1
  have hmx : max (p 2) PinholeConfig.epsilon = p 2 := max_eq_left hz'.1
  generalize hud : (c.cartesianToSensor p).u = u at hu
  generalize hvd : (c.cartesianToSensor p).v = v at hv
  have hu2 : c.fx * p 0 / p 2 + c.cx = u := by rw [← hud]; unfold PinholeConfig.cartesianToSensor; dsimp only; rw [hmx]
  have hv2 : c.fy * p 1 / p 2 + c.cy = v := by rw [← hvd]; unfold PinholeConfig.cartesianToSensor; dsimp only; rw [hmx]
  have hp0 : p 0 = p 2 * (u - c.cx) / c.fx := by rw [← hu2]; field_simp; ring
  have hp1 : p 1 = p 2 * (v - c.cy) / c.fy := by rw [← hv2]; field_simp; ring
  let corner : ℝ → ℝ → Vec3 := fun a b => fromSensorFrame R t ![maxRange * (a - c.cx) / c.fx, maxRange * (b - c.cy) / c.fy, maxRange]
  have hcorner : ∀ a b : ℝ, fromSensorFrame R t (c.sensorToCartesian ⟨a, b, maxRange⟩) = corner a b := by
    intro a b
    show _ = fromSensorFrame R t _
    congr 1
    unfold PinholeConfig.sensorToCartesian
    funext k
    fin_cases k
    · show maxRange * (1 / (c.fx * c.fy)) * (c.fy * a - c.cx * c.fy) = maxRange * (a - c.cx) / c.fx
      field_simp
    · show maxRange * (1 / (c.fx * c.fy)) * (c.fx * b - c.cy * c.fx) = maxRange * (b - c.cy) / c.fy
      field_simp
    · show maxRange * (1 / (c.fx * c.fy)) * (c.fx * c.fy) = maxRange
      field_simp
  have hb : (fixedImportRangeImage PinholeConfig.grid c.sensorToCartesian maxRange R t big padding st input initial).2 =
      ((((((RBox.empty big).includePoint t).includePoint (corner 0 0)).includePoint (corner c.width 0)).includePoint (corner 0 c.height)).includePoint
        (corner c.width c.height)).pad padding := by
    unfold fixedImportRangeImage
    dsimp only
    rw [show List.range 4 = [0, 1, 2, 3] from rfl]
    simp only [List.foldl_cons, List.foldl_nil, hrows, hcols, ImageGrid.indexToImage, PinholeConfig.grid, hcorner]
    norm_num [show (1 : Nat) &&& 1 = 1 from rfl, show (2 : Nat) &&& 1 = 0 from rfl, show (3 : Nat) &&& 1 = 1 from rfl, show (1 : Nat) >>> 1 = 0 from rfl,
      show (2 : Nat) >>> 1 = 1 from rfl, show (3 : Nat) >>> 1 = 1 from rfl]
  rw [hb]
  generalize hB : ((((((RBox.empty big).includePoint t).includePoint (corner 0 0)).includePoint (corner c.width 0)).includePoint (corner 0 c.height)).includePoint
        (corner c.width c.height)) = B
  have ht : B.Contains t := by
    rw [← hB]
    exact RBox.includePoint_grows _ _ (RBox.includePoint_grows _ _ (RBox.includePoint_grows _ _ (RBox.includePoint_grows _ _ (RBox.includePoint_self _ _))))
  have h00 : B.Contains (corner 0 0) := by
    rw [← hB]
    exact RBox.includePoint_grows _ _ (RBox.includePoint_grows _ _ (RBox.includePoint_grows _ _ (RBox.includePoint_self _ _)))
  have h10 : B.Contains (corner c.width 0) := by
    rw [← hB]
    exact RBox.includePoint_grows _ _ (RBox.includePoint_grows _ _ (RBox.includePoint_self _ _))
  have h01 : B.Contains (corner 0 c.height) := by
    rw [← hB]
    exact RBox.includePoint_grows _ _ (RBox.includePoint_self _ _)
  have h11 : B.Contains (corner c.width c.height) := by
    rw [← hB]
    exact RBox.includePoint_self _ _
  -- the point is a mean of the sensor's position and the corners
  set l := p 2 / maxRange with hl
  set a := u / c.width with ha
  set b := v / c.height with hb'
  have l0 : 0 ≤ l := by positivity
  have l1 : l ≤ 1 := by rw [hl, div_le_one hmax]; exact hz'.2
  have a0 : 0 ≤ a := div_nonneg hu.1 hW'.le
  have a1 : a ≤ 1 := by rw [ha, div_le_one hW']; exact hu.2
  have b0 : 0 ≤ b := div_nonneg hv.1 hH'.le
  have b1 : b ≤ 1 := by rw [hb', div_le_one hH']; exact hv.2
  have hcomb : ∀ k, fromSensorFrame R t p k = (1 - l) * t k + l * ((1 - a) * ((1 - b) * corner 0 0 k + b * corner 0 c.height k) +
      a * ((1 - b) * corner c.width 0 k + b * corner c.width c.height k)) := by
    intro k
    have hua : u = a * c.width := by rw [ha, div_mul_cancel₀ _ hW'.ne']
    have hvb : v = b * c.height := by rw [hb', div_mul_cancel₀ _ hH'.ne']
    have hzl : p 2 = l * maxRange := by rw [hl, div_mul_cancel₀ _ hmax.ne']
    show R 0 k * p 0 + R 1 k * p 1 + R 2 k * p 2 + t k = (1 - l) * t k + l * ((1 - a) * ((1 - b) *
      (R 0 k * (maxRange * (0 - c.cx) / c.fx) + R 1 k * (maxRange * (0 - c.cy) / c.fy) + R 2 k * maxRange + t k) + b *
      (R 0 k * (maxRange * (0 - c.cx) / c.fx) + R 1 k * (maxRange * (c.height - c.cy) / c.fy) + R 2 k * maxRange + t k)) + a * ((1 - b) *
      (R 0 k * (maxRange * (c.width - c.cx) / c.fx) + R 1 k * (maxRange * (0 - c.cy) / c.fy) + R 2 k * maxRange + t k) + b *
      (R 0 k * (maxRange * (c.width - c.cx) / c.fx) + R 1 k * (maxRange * (c.height - c.cy) / c.fy) + R 2 k * maxRange + t k)))
    rw [hp0, hp1, hzl, hua, hvb]
    field_simp
    ring
  have mean : ∀ {s x y lo hi : ℝ}, 0 ≤ s → s ≤ 1 → lo ≤ x ∧ x ≤ hi → lo ≤ y ∧ y ≤ hi → lo ≤ (1 - s) * x + s * y ∧ (1 - s) * x + s * y ≤ hi := by
    intro s x y lo hi h0 h1 hx hy
    have q0 : 0 ≤ 1 - s := by linarith
    have b1 := mul_le_mul_of_nonneg_left hx.1 q0
    have b2 := mul_le_mul_of_nonneg_left hx.2 q0
    have b3 := mul_le_mul_of_nonneg_left hy.1 h0
    have b4 := mul_le_mul_of_nonneg_left hy.2 h0
    constructor <;> linarith
  intro k
  rw [hxw, hcomb k]
  have := mean l0 l1 (ht k) (mean a0 a1 (mean b0 b1 (h00 k) (h01 k)) (mean b0 b1 (h10 k) (h11 k)))
  show B.min k - padding ≤ _ ∧ _ ≤ B.max k + padding
  constructor
  · exact le_trans (by linarith) this.1
  · exact le_trans this.2 (by linarith)


/-! ## Where it fails -/

noncomputable section

/-- A camera with a wide field of view. -/
def wideCamera : PinholeConfig := ⟨20, 20, 1, 1, 10, 10⟩

/-- The camera as the integrators use it. -/
def wideProjector : Projector := ⟨20, 20, PinholeConfig.grid, fun q => wideCamera.cartesianToSensor ![q.1, q.2.1, q.2.2]⟩

/-- The sensor's frame is the world's. -/
def noRotation : Fin 3 → Vec3 := fun i j => if i = j then 1 else 0

theorem noRotation_orthogonal : IsOrthogonal noRotation := by
  intro i j
  fin_cases i <;> fin_cases j <;> simp [noRotation]

def narrowRay : ContinuousRayConfig := ⟨1 / 100, 1 / 2, 1 / 2, .nearestNeighbor⟩

theorem wide_toSensor (x : Vec3) : toSensorFrame noRotation (fun _ => 0) x = x := by
  funext k
  fin_cases k <;> simp [toSensorFrame, noRotation]

theorem wide_coordinates (i : Index 3) (h : 0 ≤ i 2) : wideCamera.cartesianToSensor (toSensorFrame noRotation (fun _ => 0) (cellCenter (1 / 10) i)) =
    ⟨((i 0 : ℝ) + 1 / 2) / ((i 2 : ℝ) + 1 / 2) + 10, ((i 1 : ℝ) + 1 / 2) / ((i 2 : ℝ) + 1 / 2) + 10, ((i 2 : ℝ) + 1 / 2) * (1 / 10)⟩ := by
  rw [wide_toSensor]
  have h2 : (0 : ℝ) ≤ i 2 := by exact_mod_cast h
  have hm : max (((i 2 : ℝ) + 1 / 2) * (1 / 10)) PinholeConfig.epsilon = ((i 2 : ℝ) + 1 / 2) * (1 / 10) :=
    max_eq_left (by unfold PinholeConfig.epsilon; linarith)
  have h3 : ((i 2 : ℝ) + 1 / 2) ≠ 0 := by linarith
  show SensorCoordinates.mk _ _ _ = _
  simp only [wideCamera, cellCenter]
  rw [hm]
  congr 1
  · field_simp
  · field_simp

theorem wide_free (im : Image ℝ) (s : SensorCoordinates) (v : ℝ) (him : im.at (PinholeConfig.grid.nearestIndex s.u s.v) = some v) (h1 : 1 / 2 ≤ s.depth)
    (h2 : s.depth ≤ 20) (h3 : s.depth < v - 3 / 100) :
    projectiveUpdate ⟨1 / 2, 20, 0, 1⟩ (narrowRay.computeUpdate PinholeConfig.grid im) s = some (Real.log (1 / 3)) := by
  unfold projectiveUpdate
  rw [if_neg (by simp only [not_or, not_lt]; exact ⟨h1, h2⟩)]
  show narrowRay.beamUpdate im s.depth (PinholeConfig.grid.nearestIndex s.u s.v) = _
  unfold ContinuousRayConfig.beamUpdate
  rw [him]
  show narrowRay.distanceUpdate s.depth v = _
  unfold ContinuousRayConfig.distanceUpdate
  rw [if_neg (by show ¬ 6 * (1 / 100 : ℝ) < _; linarith), if_pos (by show _ < v - 3 * (1 / 100 : ℝ); linarith)]
  unfold ContinuousRayConfig.freeSpaceUpdate logOddsUpdate
  have e : (-1 / 2 * narrowRay.scalingFree + 1 / 2 : ℝ) = 1 / 4 := by show (-1 / 2 * (1 / 2) + 1 / 2 : ℝ) = 1 / 4; norm_num
  rw [e, if_pos (by norm_num)]
  norm_num

theorem roundR_eq {x : ℝ} {n : Nat} (h : (n : ℝ) - 1 / 2 ≤ x) (h' : x < n + 1 / 2) (h0 : 0 ≤ x ∨ (n = 0 ∧ -1 / 2 < x)) : roundR x = n := by
  unfold roundR
  by_cases hx : 0 ≤ x
  · rw [if_pos hx, Int.floor_eq_iff]
    push_cast
    constructor <;> linarith
  · rw [if_neg hx, Int.ceil_eq_iff]
    rcases h0 with h0 | ⟨rfl, h0⟩
    · exact absurd h0 hx
    · push_cast
      rw [not_le] at hx
      constructor <;> linarith

/-- Finding: a point cloud's box does not contain the area of the pixels that the points fall into. With a ray model, which gives all cells in a pixel's
area the same update, cells are skipped: here a point 10 m ahead; the cell at (2.05, 0.05, 5.05) is in front of it in the same pixel and its update is
log(1/3), but it is not visited. (The hierarchical integrators do update it.) -/
theorem C66_pixel_area_fails :
    let cloud : List CloudPoint := [some (0, 0, 10)]
    let r := fixedImportPointcloud wideProjector (1 / 2) 20 noRotation (fun _ => 0) (10 ^ 30) (lateralPadding 0 (6 / 100) 20) (.init wideProjector) cloud
    let i : Index 3 := ![20, 0, 50]
    projectiveUpdate ⟨1 / 2, 20, 0, 1⟩ (narrowRay.computeUpdate PinholeConfig.grid r.1.range)
      (wideCamera.cartesianToSensor (toSensorFrame noRotation (fun _ => 0) (cellCenter (1 / 10) i))) = some (Real.log (1 / 3)) ∧
    Real.log (1 / 3) < 0 ∧ ¬ r.2.Visits (1 / 10) i := by
  intro cloud r i
  have hs : wideProjector.cartesianToSensor (0, 0, 10) = ⟨10, 10, 10⟩ := by
    show SensorCoordinates.mk (1 * 0 / _ + 10) (1 * 0 / _ + 10) 10 = _
    congr 1 <;> simp
  have hnear : PinholeConfig.grid.nearestIndex 10 10 = (10, 10) := by
    have : roundR ((10 - 0 : ℝ) * (1 / 1)) = (10 : Nat) := roundR_eq (by norm_num) (by norm_num) (Or.inl (by norm_num))
    show (roundR ((10 - 0 : ℝ) * (1 / 1)), roundR ((10 - 0 : ℝ) * (1 / 1))) = _
    rw [this]; rfl
  have hvalid : isMeasurementValid (some ((0 : ℝ), (0 : ℝ), (10 : ℝ))) = true := by
    unfold isMeasurementValid
    dsimp only
    rw [if_neg (by norm_num), if_neg (by norm_num)]
  have hpx : r.1.range.at (10, 10) = some 10 := by
    have e : r.1 = importPointcloud wideProjector (1 / 2) (.init wideProjector) cloud := C66_same_image _ _ _ _ _ _ _ _ _
    rw [e]
    show (importPoint wideProjector (1 / 2) _ (some (0, 0, 10))).range.at (10, 10) = some 10
    unfold importPoint
    dsimp only
    rw [if_pos hvalid, hs]
    have hi : (PinholeConfig.grid.nearestIndexAndOffset 10 10).1 = (10, 10) := hnear
    have hg : wideProjector.grid = PinholeConfig.grid := rfl
    rw [hg, hi]
    have ha : ((RangeState.init wideProjector).range.setToConstant (RangeState.init wideProjector).initial).at (10, 10) = some 0 := by
      unfold Image.at
      rw [if_pos (by rfl)]
      rfl
    rw [ha]
    dsimp only
    rw [if_pos (Or.inl (by norm_num))]
    unfold Image.at
    rw [if_pos (by rfl)]
    simp [Image.set]
  refine ⟨?_, ?_, ?_⟩
  · rw [wide_coordinates i (by decide)]
    have e0 : ((i 0 : ℤ) : ℝ) = 20 := by show (((20 : ℤ)) : ℝ) = 20; norm_num
    have e1 : ((i 1 : ℤ) : ℝ) = 0 := by show (((0 : ℤ)) : ℝ) = 0; norm_num
    have e2 : ((i 2 : ℤ) : ℝ) = 50 := by show (((50 : ℤ)) : ℝ) = 50; norm_num
    rw [e0, e1, e2]
    refine wide_free _ _ 10 ?_ (by norm_num) (by norm_num) (by norm_num)
    have : PinholeConfig.grid.nearestIndex (((20 : ℝ) + 1 / 2) / (50 + 1 / 2) + 10) (((0 : ℝ) + 1 / 2) / (50 + 1 / 2) + 10) = (10, 10) := by
      have h1 : roundR ((((20 : ℝ) + 1 / 2) / (50 + 1 / 2) + 10 - 0) * (1 / 1)) = (10 : Nat) := roundR_eq (by norm_num) (by norm_num) (Or.inl (by norm_num))
      have h2 : roundR ((((0 : ℝ) + 1 / 2) / (50 + 1 / 2) + 10 - 0) * (1 / 1)) = (10 : Nat) := roundR_eq (by norm_num) (by norm_num) (Or.inl (by norm_num))
      show (roundR ((((20 : ℝ) + 1 / 2) / (50 + 1 / 2) + 10 - 0) * (1 / 1)), roundR ((((0 : ℝ) + 1 / 2) / (50 + 1 / 2) + 10 - 0) * (1 / 1))) = _
      rw [h1, h2]; rfl
    show r.1.range.at (PinholeConfig.grid.nearestIndex _ _) = _
    rw [this, hpx]
  · exact Real.log_neg (by norm_num) (by norm_num)
  · intro hvis
    have h := ((C66_box_cells r.2 (1 / 10) (by norm_num) i).2 hvis 0).2
    have hb : r.2.max 0 = 6 / 100 := by
      have hq : boxPoint wideProjector noRotation (fun _ => 0) 20 ((RangeState.init wideProjector).range.setToConstant (RangeState.init wideProjector).initial)
          (some (0, 0, 10)) = some ![0, 0, 10] := by
        unfold boxPoint
        dsimp only
        rw [if_pos hvalid, hs]
        have hi : (PinholeConfig.grid.nearestIndexAndOffset 10 10).1 = (10, 10) := hnear
        have hg : wideProjector.grid = PinholeConfig.grid := rfl
        rw [hg, hi, if_pos (by rfl)]
        unfold endPointOrMaxRange
        rw [if_neg (by norm_num)]
        congr 1
        funext k
        fin_cases k <;> simp [fromSensorFrame, noRotation]
      show ([some ((0 : ℝ), (0 : ℝ), (10 : ℝ))].foldl (fixedImportPoint wideProjector (1 / 2) 20 noRotation fun _ => 0) _).2.max 0 + lateralPadding 0 (6 / 100) 20 = _
      rw [List.foldl_cons, List.foldl_nil]
      unfold fixedImportPoint
      rw [hq]
      show max (max (-(10 ^ 30 : ℝ)) 0) 0 + max (Real.sin 0 * 20) (6 / 100) = 6 / 100
      rw [Real.sin_zero, max_eq_right (by norm_num : -(10 ^ 30 : ℝ) ≤ 0), max_self, zero_mul, max_eq_right (by norm_num)]
      norm_num
    rw [hb] at h
    have : cellCenter (1 / 10) i 0 = 205 / 100 := by
      show (((20 : ℤ) : ℝ) + 1 / 2) * (1 / 10) = _
      norm_num
    rw [this] at h
    norm_num at h

/-- Finding: the box of a range image does not contain the area of the pixels in its first row and column, which begins half a pixel outside of it. Here
the cell at (-208.05, 0.05, 19.95) projects to u = -0.43, so pixel 0 decides its update, log(1/3), but it is not visited. -/
theorem C66_frustum_fails :
    let input : Image ℝ := ⟨20, 20, fun _ _ => 30⟩
    let r := fixedImportRangeImage PinholeConfig.grid wideCamera.sensorToCartesian 20 noRotation (fun _ => 0) (10 ^ 30) (lateralPadding 0 (6 / 100) 20)
      (.init wideProjector) input 0
    let i : Index 3 := ![-2081, 0, 199]
    projectiveUpdate ⟨1 / 2, 20, 0, 1⟩ (narrowRay.computeUpdate PinholeConfig.grid r.1.range)
      (wideCamera.cartesianToSensor (toSensorFrame noRotation (fun _ => 0) (cellCenter (1 / 10) i))) = some (Real.log (1 / 3)) ∧
    Real.log (1 / 3) < 0 ∧ ¬ r.2.Visits (1 / 10) i := by
  intro input r i
  refine ⟨?_, ?_, ?_⟩
  · rw [wide_coordinates i (by decide)]
    have e0 : ((i 0 : ℤ) : ℝ) = -2081 := by show (((-2081 : ℤ)) : ℝ) = -2081; norm_num
    have e1 : ((i 1 : ℤ) : ℝ) = 0 := by show (((0 : ℤ)) : ℝ) = 0; norm_num
    have e2 : ((i 2 : ℤ) : ℝ) = 199 := by show (((199 : ℤ)) : ℝ) = 199; norm_num
    rw [e0, e1, e2]
    refine wide_free _ _ 30 ?_ (by norm_num) (by norm_num) (by norm_num)
    have : PinholeConfig.grid.nearestIndex (((-2081 : ℝ) + 1 / 2) / (199 + 1 / 2) + 10) (((0 : ℝ) + 1 / 2) / (199 + 1 / 2) + 10) = (0, 10) := by
      have h1 : roundR ((((-2081 : ℝ) + 1 / 2) / (199 + 1 / 2) + 10 - 0) * (1 / 1)) = (0 : Nat) := roundR_eq (by norm_num) (by norm_num) (Or.inr ⟨rfl, by norm_num⟩)
      have h2 : roundR ((((0 : ℝ) + 1 / 2) / (199 + 1 / 2) + 10 - 0) * (1 / 1)) = (10 : Nat) := roundR_eq (by norm_num) (by norm_num) (Or.inl (by norm_num))
      show (roundR ((((-2081 : ℝ) + 1 / 2) / (199 + 1 / 2) + 10 - 0) * (1 / 1)), roundR ((((0 : ℝ) + 1 / 2) / (199 + 1 / 2) + 10 - 0) * (1 / 1))) = _
      rw [h1, h2]; rfl
    show r.1.range.at (PinholeConfig.grid.nearestIndex _ _) = _
    rw [this]
    show (if input.inBounds (0, 10) then _ else _) = _
    rw [if_pos (by rfl)]
    rfl
  · exact Real.log_neg (by norm_num) (by norm_num)
  · intro hvis
    have h := ((C66_box_cells r.2 (1 / 10) (by norm_num) i).2 hvis 0).1
    have hc : ∀ a b : ℝ, fromSensorFrame noRotation (fun _ => 0) (wideCamera.sensorToCartesian ⟨a, b, 20⟩) 0 = 20 * (a - 10) := by
      intro a b
      simp [fromSensorFrame, noRotation, PinholeConfig.sensorToCartesian, wideCamera]
    have hb : r.2.min 0 = -200 - 6 / 100 := by
      show ((List.range 4).foldl _ _ : RBox).min 0 - lateralPadding 0 (6 / 100) 20 = _
      rw [show List.range 4 = [0, 1, 2, 3] from rfl]
      simp only [List.foldl_cons, List.foldl_nil, RBox.includePoint, hc, ImageGrid.indexToImage, PinholeConfig.grid, input, RBox.empty, lateralPadding,
        Real.sin_zero]
      norm_num [show (1 : Nat) &&& 1 = 1 from rfl, show (2 : Nat) &&& 1 = 0 from rfl, show (3 : Nat) &&& 1 = 1 from rfl, show (1 : Nat) >>> 1 = 0 from rfl,
        show (2 : Nat) >>> 1 = 1 from rfl, show (3 : Nat) >>> 1 = 1 from rfl]
    rw [hb] at h
    have : cellCenter (1 / 10) i 0 = -20805 / 100 := by
      show (((-2081 : ℤ) : ℝ) + 1 / 2) * (1 / 10) = _
      norm_num
    rw [this] at h
    norm_num at h

end

/-- Finding: the octree's bounds are not checked. In a map of tree height 2, whose cells are -2..1 along each axis, a measurement of cell (2, 2, 2) is added
to cell (-2, -2, -2) at the opposite end. -/
theorem C66_outside_map_fails : ((fixedUpdateMap (fun _ => 2) (fun _ => 2) (fun _ => 1) (fun _ => 0) (.waveletOctree (.create ⟨1, -2, 4, 2⟩))).any fun m =>
    decide (m.cell (fun _ => -2) = 1)) = true ∧ ¬ CellInMap 2 (fun _ => 2) ∧ CellInMap 2 (fun _ => -2) ∧
    (AnyMap.waveletOctree (.create ⟨1, -2, 4, 2⟩)).cell (fun _ => -2) = 0 := by
  refine ⟨by decide +kernel, by decide, by decide, by decide +kernel⟩

/-! ## The hypotheses are met -/

example : -- a map with values in it, a box of eight cells in it, and updates that are added, clamped, too small or outside
    ∃ m : AnyMap, m.Mapped ∧ (∀ i, (∀ k, (-1 : Int) ≤ i k ∧ i k ≤ 0) → m.Covers i) ∧ m.cell (fun _ => 0) = 3 ∧
      m.combine (m.cell fun _ => 0) 2 = 4 := by
  refine ⟨.hashedBlocks ([HashedBlocksOp.add (fun _ => 0) 3].foldl HashedBlocksOp.run (HashedBlocks.create ⟨1, -2, 4⟩ 0)), ⟨_, _, _, by decide +kernel, rfl⟩,
    fun _ _ => trivial, by decide +kernel, by decide +kernel⟩

example : -- the same for an octree
    ∃ m : AnyMap, m.Mapped ∧ (∀ i, (∀ k, (-1 : Int) ≤ i k ∧ i k ≤ 0) → m.Covers i) ∧ m.cell (fun _ => 0) = 3 := by
  refine ⟨.waveletOctree ((WaveletOctree.create ⟨1, -2, 4, 2⟩).addToNodeValue ⟨0, fun _ => 0⟩ 3),
    ⟨⟨1, -2, 4, 2⟩, by decide +kernel, by decide, [.op (.write (.add ⟨0, fun _ => 0⟩ 3))], ?_, rfl⟩, ?_, by decide +kernel⟩
  · intro o ho
    rw [List.mem_singleton] at ho
    subst ho
    exact ⟨by decide, by decide, fun k => by revert k; decide⟩
  · intro i hi k
    have := hi k
    constructor
    · show -(2 ^ (2 - 1) : Int) ≤ _; omega
    · show _ < (2 ^ (2 - 1) : Int); omega

noncomputable section

/-- A sensor that measures distances, with one pixel. -/
def distanceSensor : Projector := ⟨1, 1, ⟨1, 1, 0, 0⟩, fun q => ⟨0, 0, Real.sqrt (q.1 ^ 2 + q.2.1 ^ 2 + q.2.2 ^ 2)⟩⟩

example : -- a return at (3, 4, 0) and the cell with center (1.5, 2.5, 0.5) in front of it, with a padding angle of 90 degrees
    IsOrthogonal noRotation ∧ (0 : ℝ) ≤ Real.sin (Real.pi / 2) ∧ (0 : ℝ) ≤ Real.cos (Real.pi / 2) ∧
    isMeasurementValid (some ((3 : ℝ), (4 : ℝ), (0 : ℝ))) = true ∧ (distanceSensor.cartesianToSensor (3, 4, 0)).depth = 5 ∧
    (RangeState.init distanceSensor).range.inBounds (distanceSensor.grid.nearestIndex (distanceSensor.cartesianToSensor (3, 4, 0)).u
      (distanceSensor.cartesianToSensor (3, 4, 0)).v) = true ∧
    (∃ distance : ℝ, 0 ≤ distance ∧ distance ^ 2 = (3 / 2) ^ 2 + (5 / 2) ^ 2 + (1 / 2) ^ 2 ∧ distance ≤ 5 ∧
      Real.cos (Real.pi / 2) * (distance * 5) ≤ 3 / 2 * 3 + 5 / 2 * 4 + 1 / 2 * 0) := by
  refine ⟨noRotation_orthogonal, by rw [Real.sin_pi_div_two]; norm_num, by rw [Real.cos_pi_div_two], ?_, ?_, ?_, Real.sqrt (35 / 4), Real.sqrt_nonneg _, ?_, ?_, ?_⟩
  · unfold isMeasurementValid
    dsimp only
    rw [if_neg (by norm_num), if_neg (by norm_num)]
  · show Real.sqrt (3 ^ 2 + 4 ^ 2 + 0 ^ 2) = 5
    rw [show (3 ^ 2 + 4 ^ 2 + 0 ^ 2 : ℝ) = 5 ^ 2 by norm_num]
    exact Real.sqrt_sq (by norm_num)
  · have h1 : roundR ((0 - 0 : ℝ) * (1 / 1)) = (0 : Nat) := roundR_eq (by norm_num) (by norm_num) (Or.inl (by norm_num))
    show (RangeState.init distanceSensor).range.inBounds (roundR ((0 - 0 : ℝ) * (1 / 1)), roundR ((0 - 0 : ℝ) * (1 / 1))) = true
    rw [h1]
    rfl
  · rw [Real.sq_sqrt (by norm_num)]; norm_num
  · rw [Real.sqrt_le_left (by norm_num)]; norm_num
  · rw [Real.cos_pi_div_two]; norm_num

example : -- a cell in the camera's view
    wideCamera.Valid ∧ let s := wideCamera.cartesianToSensor (toSensorFrame noRotation (fun _ => 0) (cellCenter (1 / 10) ![20, 0, 50]))
    PinholeConfig.epsilon ≤ s.depth ∧ s.depth ≤ 20 ∧ 0 ≤ s.u ∧ s.u ≤ wideCamera.width ∧ 0 ≤ s.v ∧ s.v ≤ wideCamera.height := by
  refine ⟨⟨by decide, by decide, by norm_num [wideCamera], by norm_num [wideCamera]⟩, ?_⟩
  rw [wide_coordinates _ (by decide)]
  have e0 : (((![20, 0, 50] : Index 3) 0 : ℤ) : ℝ) = 20 := by show (((20 : ℤ)) : ℝ) = 20; norm_num
  have e1 : (((![20, 0, 50] : Index 3) 1 : ℤ) : ℝ) = 0 := by show (((0 : ℤ)) : ℝ) = 0; norm_num
  have e2 : (((![20, 0, 50] : Index 3) 2 : ℤ) : ℝ) = 50 := by show (((50 : ℤ)) : ℝ) = 50; norm_num
  rw [e0, e1, e2]
  norm_num [PinholeConfig.epsilon, wideCamera]

end

end Wavemap
