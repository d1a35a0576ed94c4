import Verif.Lemmas.HashedWavelet
/-!
# C18, and C20–C23 for the hashed wavelet octree

The specification is a plain table `Index 3 → ℚ` over the whole index space, plus the set of cells whose block
is allocated.
-/
namespace Wavemap
open NdtreeIndex

/-! ## Specification -/

/-- Operations whose effect on cell values is exact; `now` is the time of the call. -/
inductive HashedWaveletWrite where
  | add (i : Index 3) (u now : ℚ)
  | set (i : Index 3) (v now : ℚ)
  | threshold
  | clear

/-- All operations of a user. -/
inductive HashedWaveletOp where
  | write (w : HashedWaveletWrite)
  | prune
  | pruneSmart (now : ℚ)
  | eraseBlocks (p : Index 3 → Bool)

/-- The operation on the modelled map. -/
def HashedWaveletWrite.run (m : HashedWaveletOctree) : HashedWaveletWrite → HashedWaveletOctree
  | .add i u now => m.addToCellValue i u now
  | .set i v now => m.setCellValue i v now
  | .threshold => m.threshold
  | .clear => m.clear

/-- The operation on the modelled map. -/
def HashedWaveletOp.run (m : HashedWaveletOctree) : HashedWaveletOp → HashedWaveletOctree
  | .write w => w.run m
  | .prune => m.prune
  | .pruneSmart now => m.pruneSmart now
  | .eraseBlocks p => m.eraseBlockIf p

/-- A table of cell values and the set of cells in allocated blocks. -/
structure CellTable where
  value : Index 3 → ℚ
  allocated : Index 3 → Bool

/-- The empty table. -/
def CellTable.empty : CellTable := ⟨fun _ => 0, fun _ => false⟩

/-- The operation on a table, as the code performs it. `H` is the tree height (blocks have `2^H` cells per side).
`set` adds the difference between the new value and the mean of the eight cells of the cell's parent
(the documented meaning would be to overwrite; see `C18_set_overwrites_fails`). Thresholding clamps the cells in
allocated blocks. -/
def HashedWaveletWrite.spec (H : Nat) (lo hi : ℚ) (t : CellTable) : HashedWaveletWrite → CellTable
  | .add i u _ => ⟨fun j => if j = i then t.value j + u else t.value j, fun j => t.allocated j || decide (SameBlock H i j)⟩
  | .set i v _ => ⟨fun j => if j = i then t.value j + (v - boxMean t.value 1 fun k => i k / 2 * 2) else t.value j,
      fun j => t.allocated j || decide (SameBlock H i j)⟩
  | .threshold => ⟨fun j => if t.allocated j then max lo (min (t.value j) hi) else t.value j, t.allocated⟩
  | .clear => .empty

/-- A map reachable by any sequence of operations from a new map. -/
def HashedWaveletOctree.Reachable (m : HashedWaveletOctree) : Prop :=
  ∃ config : HashedWaveletOctreeConfig, config.isValid = true ∧ config.treeHeight ≤ 20 ∧
    ∃ ops : List HashedWaveletOp, ops.foldl HashedWaveletOp.run (.create config) = m

/-- The cell's block is allocated. -/
def HashedWaveletOctree.Allocated (m : HashedWaveletOctree) (j : Index 3) : Prop :=
  ∃ b, InBlock m.config.treeHeight b j ∧ (m.blocks.getBlock b).isSome = true

/-! ## Invariant -/

namespace HashedWaveletOctree

theorem allocated_iff (m : HashedWaveletOctree) (j : Index 3) :
    m.Allocated j ↔ (m.blocks.getBlock (indexToBlockIndex m.config.treeHeight j)).isSome = true := by
  unfold Allocated
  constructor
  · rintro ⟨b, hb, hs⟩
    rw [inBlock_iff] at hb; rw [hb]; exact hs
  · intro h; exact ⟨_, (inBlock_iff _ _).2 rfl, h⟩

instance (m : HashedWaveletOctree) (j : Index 3) : Decidable (m.Allocated j) :=
  decidable_of_iff' _ (m.allocated_iff j)

/-- Invariant of reachable maps. -/
structure Inv (m : HashedWaveletOctree) : Prop where
  pos : 0 < m.config.treeHeight
  le : m.config.treeHeight ≤ 20
  bounds : m.config.minLogOdds ≤ m.config.maxLogOdds
  nodup : m.blocks.keys.Nodup
  ok : ∀ k b, m.blocks.getBlock k = some b → b.Ok m.config.treeHeight m.config.minLogOdds m.config.maxLogOdds

theorem nodeToCell_zero (m : HashedWaveletOctree) (h : m.config.treeHeight ≤ 20) (i : Index 3) :
    m.nodeToCellIndex ⟨0, i⟩ = ⟨0, fun k => i k % 2 ^ m.config.treeHeight⟩ := by
  unfold nodeToCellIndex
  congr 1
  funext k
  have : ((m.config.treeHeight : Int) - 0).toNat = m.config.treeHeight := by omega
  simp only [this]
  exact divExp2FloorRemainder_eq _ _ (by omega)

theorem getCellValue_eq {m : HashedWaveletOctree} (h : m.Inv) (i : Index 3) :
    m.getCellValue i = match m.blocks.getBlock (indexToBlockIndex m.config.treeHeight i) with
      | none => 0
      | some b => b.val i := by
  unfold getCellValue
  split
  · next e => simp only [e]
  · next b e =>
    simp only [e]
    have hb := h.ok _ _ e
    rw [nodeToCell_zero m h.le, ← hb.height]
    exact b.getCellValue_eq (by rw [hb.height]; exact h.le) i

theorem mod_eq_iff {H : Nat} {i j : Index 3} (hb : indexToBlockIndex H j = indexToBlockIndex H i) :
    (fun k => i k % (2 : Int) ^ H) = (fun k => j k % 2 ^ H) ↔ j = i := by
  constructor
  · intro h
    funext k
    have h1 := congrFun h k
    have h2 := congrFun hb k
    simp only [indexToBlockIndex, divExp2Floor_eq] at h1 h2
    rw [← Int.emod_add_mul_ediv (i k) (2 ^ H), ← Int.emod_add_mul_ediv (j k) (2 ^ H), h1, h2]
  · rintro rfl; rfl

/-- Writes through a block: common part of set and add. -/
theorem modify_getBlock (m : HashedWaveletOctree) (i : Index 3) (now : ℚ) (f : WaveletBlock → WaveletBlock) (k : Index 3) :
    ((m.getOrAllocateBlock (indexToBlockIndex m.config.treeHeight i) now).blocks.modifyBlock
        (indexToBlockIndex m.config.treeHeight i) f).getBlock k
      = if k = indexToBlockIndex m.config.treeHeight i then
          some (f ((m.blocks.getBlock k).getD (.create m.config.treeHeight m.config.minLogOdds m.config.maxLogOdds now)))
        else m.blocks.getBlock k := by
  rw [SpatialHash.getBlock_modify]
  simp only [getOrAllocateBlock, SpatialHash.getBlock_getOrAllocate]
  split
  · next e => subst e; simp
  · rfl

theorem weak {m : HashedWaveletOctree} (h : m.Inv) (k : Index 3) (now : ℚ) :
    let b := (m.blocks.getBlock k).getD (.create m.config.treeHeight m.config.minLogOdds m.config.maxLogOdds now)
    b.treeHeight = m.config.treeHeight ∧ b.minLogOdds = m.config.minLogOdds ∧ b.maxLogOdds = m.config.maxLogOdds ∧
      b.root ≠ .nil ∧ WTree.DepthLe m.config.treeHeight b.root := by
  cases e : m.blocks.getBlock k with
  | none =>
    have := WaveletBlock.Ok.create (H := m.config.treeHeight) (lo := m.config.minLogOdds) (hi := m.config.maxLogOdds) h.pos now
    exact ⟨rfl, rfl, rfl, this.1, this.2⟩
  | some b =>
    have hb := h.ok _ _ e
    exact ⟨hb.height, hb.minOk, hb.maxOk, hb.root, hb.depth⟩

theorem Inv.add {m : HashedWaveletOctree} (h : m.Inv) (i : Index 3) (u now : ℚ) : (m.addToCellValue i u now).Inv := by
  refine ⟨h.pos, h.le, h.bounds, ?_, ?_⟩
  · unfold addToCellValue
    dsimp only
    rw [SpatialHash.keys_modify]
    exact SpatialHash.keys_getOrAllocate _ _ _ h.nodup
  · intro k b hk
    have hcfg : (m.addToCellValue i u now).config = m.config := rfl
    rw [hcfg]
    have := modify_getBlock m i now (fun b => b.addToCellValue (m.nodeToCellIndex ⟨0, i⟩) u now) k
    have hk' : _ = some b := this.symm.trans hk
    split at hk'
    · next e =>
      injection hk' with hk'
      subst hk'
      rw [nodeToCell_zero m h.le]
      exact WaveletBlock.Ok.add (weak h k now) h.le i u now
    · exact h.ok _ _ hk'

/-- The cell's block, or the one that would be allocated. -/
def blockOr (m : HashedWaveletOctree) (k : Index 3) (now : ℚ) : WaveletBlock :=
  (m.blocks.getBlock k).getD (.create m.config.treeHeight m.config.minLogOdds m.config.maxLogOdds now)

theorem blockOr_val {m : HashedWaveletOctree} (h : m.Inv) (j : Index 3) (now : ℚ) :
    (m.blockOr (indexToBlockIndex m.config.treeHeight j) now).val j = m.getCellValue j := by
  rw [getCellValue_eq h]
  unfold blockOr
  cases e : m.blocks.getBlock (indexToBlockIndex m.config.treeHeight j) with
  | none => exact WaveletBlock.create_val now j
  | some b => rfl

theorem set_eq_add {m : HashedWaveletOctree} (h : m.Inv) (i : Index 3) (v now : ℚ) :
    m.setCellValue i v now = m.addToCellValue i (v - boxMean m.getCellValue 1 fun k => i k / 2 * 2) now := by
  have key : (m.blockOr (indexToBlockIndex m.config.treeHeight i) now).root.currentValue
        (m.blockOr (indexToBlockIndex m.config.treeHeight i) now).rootScale
        (nodePath (m.blockOr (indexToBlockIndex m.config.treeHeight i) now).treeHeight (m.nodeToCellIndex ⟨0, i⟩))
      = boxMean m.getCellValue 1 fun k => i k / 2 * 2 := by
    obtain ⟨h1, _, _, h4, _⟩ := weak h (indexToBlockIndex m.config.treeHeight i) now
    rw [nodeToCell_zero m h.le]
    have hc := WaveletBlock.current (b := m.blockOr (indexToBlockIndex m.config.treeHeight i) now) h4
      (by show _ ≤ 20; unfold blockOr; rw [h1]; exact h.le) (by show 0 < _; unfold blockOr; rw [h1]; exact h.pos) i
    have hth : (m.blockOr (indexToBlockIndex m.config.treeHeight i) now).treeHeight = m.config.treeHeight := h1
    rw [hth] at hc ⊢
    rw [hc]
    apply boxMean_congr
    intro j hj
    have : indexToBlockIndex m.config.treeHeight i = indexToBlockIndex m.config.treeHeight j := by
      funext k
      have hk := hj k
      simp only [indexToBlockIndex, divExp2Floor_eq]
      have e : (2 : Int) ^ m.config.treeHeight = 2 * 2 ^ (m.config.treeHeight - 1) := by
        rw [← Int.pow_succ']; congr 1; have := h.pos; omega
      rw [e, ← Int.ediv_ediv_of_nonneg (by omega), ← Int.ediv_ediv_of_nonneg (by omega)]
      congr 1
      omega
    rw [this, blockOr_val h]
  rw [← key]
  unfold setCellValue addToCellValue
  dsimp only
  congr 1
  unfold SpatialHash.modifyBlock
  apply List.map_congr_left
  intro e he
  dsimp only
  split
  · next hk =>
    have hb : e.2 = m.blockOr (indexToBlockIndex m.config.treeHeight i) now := by
      have h1 := SpatialHash.getBlock_of_mem (SpatialHash.keys_getOrAllocate _ _ _ h.nodup) (show (e.1, e.2) ∈ _ from he)
      rw [SpatialHash.getBlock_getOrAllocate, if_pos hk] at h1
      injection h1 with h1
      exact h1.symm
    rw [WaveletBlock.set_eq_add, hb]; rfl
  · rfl

theorem getCellValue_add {m : HashedWaveletOctree} (h : m.Inv) (i : Index 3) (u now : ℚ) (j : Index 3) :
    (m.addToCellValue i u now).getCellValue j = if j = i then m.getCellValue j + u else m.getCellValue j := by
  rw [getCellValue_eq (h.add i u now)]
  have hcfg : (m.addToCellValue i u now).config = m.config := rfl
  rw [hcfg]
  have := modify_getBlock m i now (fun b => b.addToCellValue (m.nodeToCellIndex ⟨0, i⟩) u now)
    (indexToBlockIndex m.config.treeHeight j)
  have hbl : (m.addToCellValue i u now).blocks.getBlock (indexToBlockIndex m.config.treeHeight j) = _ := this
  rw [hbl]
  by_cases hb : indexToBlockIndex m.config.treeHeight j = indexToBlockIndex m.config.treeHeight i
  · rw [if_pos hb]
    dsimp only
    obtain ⟨h1, _, _, h4, _⟩ := weak h (indexToBlockIndex m.config.treeHeight j) now
    rw [nodeToCell_zero m h.le]
    have hv := WaveletBlock.val_add (b := m.blockOr (indexToBlockIndex m.config.treeHeight j) now) h4
      (by show _ ≤ 20; unfold blockOr; rw [h1]; exact h.le) i u now j
    have hth : (m.blockOr (indexToBlockIndex m.config.treeHeight j) now).treeHeight = m.config.treeHeight := h1
    rw [hth, blockOr_val h] at hv
    refine hv.trans ?_
    by_cases hij : j = i
    · rw [if_pos hij, if_pos ((mod_eq_iff hb).2 hij)]
    · rw [if_neg hij, if_neg (fun e => hij ((mod_eq_iff hb).1 e)), add_zero]
  · rw [if_neg hb, if_neg (by rintro rfl; exact hb rfl), getCellValue_eq h]

theorem allocated_add (m : HashedWaveletOctree) (i : Index 3) (u now : ℚ) (j : Index 3) :
    (m.addToCellValue i u now).Allocated j ↔ m.Allocated j ∨ SameBlock m.config.treeHeight i j := by
  rw [allocated_iff, allocated_iff, sameBlock_iff]
  have hcfg : (m.addToCellValue i u now).config = m.config := rfl
  rw [hcfg]
  have hbl : (m.addToCellValue i u now).blocks.getBlock (indexToBlockIndex m.config.treeHeight j) = _ :=
    modify_getBlock m i now (fun b => b.addToCellValue (m.nodeToCellIndex ⟨0, i⟩) u now) _
  rw [hbl]
  by_cases hb : indexToBlockIndex m.config.treeHeight j = indexToBlockIndex m.config.treeHeight i
  · rw [if_pos hb]; simp [hb]
  · rw [if_neg hb]; simp [hb]

theorem Inv.threshold {m : HashedWaveletOctree} (h : m.Inv) : m.threshold.Inv := by
  refine ⟨h.pos, h.le, h.bounds, ?_, ?_⟩
  · unfold HashedWaveletOctree.threshold; dsimp only
    rw [SpatialHash.keys_mapBlocks]; exact h.nodup
  · intro k b hk
    unfold HashedWaveletOctree.threshold at hk ⊢
    dsimp only at hk ⊢
    rw [SpatialHash.getBlock_mapBlocks] at hk
    cases e : m.blocks.getBlock k with
    | none => rw [e] at hk; cases hk
    | some b' =>
      rw [e] at hk
      injection hk with hk
      subst hk
      exact (h.ok k b' e).threshold h.bounds

theorem Inv.eraseIf {m : HashedWaveletOctree} (h : m.Inv) (f : WaveletBlock → WaveletBlock)
    (hf : ∀ b : WaveletBlock, b.Ok m.config.treeHeight m.config.minLogOdds m.config.maxLogOdds →
      (f b).Ok m.config.treeHeight m.config.minLogOdds m.config.maxLogOdds) :
    HashedWaveletOctree.Inv { m with blocks := m.blocks.eraseBlockIf fun _ b => (f b, (f b).empty) } := by
  refine ⟨h.pos, h.le, h.bounds, ?_, ?_⟩
  · exact SpatialHash.keys_eraseBlockIf m.blocks (fun _ b => (f b, (f b).empty)) h.nodup
  · intro k b hk
    dsimp only at hk ⊢
    rw [SpatialHash.getBlock_eraseBlockIf _ h.nodup] at hk
    cases e : m.blocks.getBlock k with
    | none => rw [e] at hk; cases hk
    | some b' =>
      rw [e] at hk
      simp only [Option.bind_some] at hk
      split at hk
      · cases hk
      · injection hk with hk
        subst hk
        exact hf _ (h.ok k b' e)

theorem Inv.prune {m : HashedWaveletOctree} (h : m.Inv) : m.prune.Inv :=
  h.eraseIf _ fun _ hb => hb.prune h.bounds

theorem Inv.pruneSmart {m : HashedWaveletOctree} (h : m.Inv) (now : ℚ) : (m.pruneSmart now).Inv := by
  apply h.eraseIf
  intro b hb
  unfold WaveletBlock.pruneIf
  split
  · exact hb.prune h.bounds
  · exact hb

theorem Inv.eraseBlockIf {m : HashedWaveletOctree} (h : m.Inv) (p : Index 3 → Bool) : (m.eraseBlockIf p).Inv := by
  refine ⟨h.pos, h.le, h.bounds, ?_, ?_⟩
  · exact SpatialHash.keys_eraseBlockIf m.blocks (fun k b => (b, p k)) h.nodup
  · intro k b hk
    unfold HashedWaveletOctree.eraseBlockIf at hk ⊢
    dsimp only at hk ⊢
    rw [SpatialHash.getBlock_eraseBlockIf _ h.nodup] at hk
    cases e : m.blocks.getBlock k with
    | none => rw [e] at hk; cases hk
    | some b' =>
      rw [e] at hk
      simp only [Option.bind_some] at hk
      split at hk
      · cases hk
      · injection hk with hk
        subst hk
        exact h.ok k b' e

theorem Inv.clear {m : HashedWaveletOctree} (h : m.Inv) : m.clear.Inv :=
  ⟨h.pos, h.le, h.bounds, List.nodup_nil, fun k b hk => by cases hk⟩

theorem Inv.create {config : HashedWaveletOctreeConfig} (hc : config.isValid = true) (hH : config.treeHeight ≤ 20) :
    (HashedWaveletOctree.create config).Inv := by
  simp only [HashedWaveletOctreeConfig.isValid, Bool.and_eq_true, decide_eq_true_eq] at hc
  exact ⟨hc.2, hH, le_of_lt hc.1.2, List.nodup_nil, fun k b hk => by cases hk⟩

theorem Inv.write {m : HashedWaveletOctree} (h : m.Inv) (w : HashedWaveletWrite) : (w.run m).Inv := by
  cases w with
  | add i u now => exact h.add i u now
  | set i v now => simp only [HashedWaveletWrite.run, set_eq_add h]; exact h.add i _ now
  | threshold => exact h.threshold
  | clear => exact h.clear

theorem Inv.run {m : HashedWaveletOctree} (h : m.Inv) (o : HashedWaveletOp) : (o.run m).Inv := by
  cases o with
  | write w => exact h.write w
  | prune => exact h.prune
  | pruneSmart now => exact h.pruneSmart now
  | eraseBlocks p => exact h.eraseBlockIf p

theorem Reachable.inv {m : HashedWaveletOctree} (h : m.Reachable) : m.Inv := by
  obtain ⟨config, hc, hH, ops, rfl⟩ := h
  have := Inv.create hc hH
  generalize HashedWaveletOctree.create config = m at this
  induction ops generalizing m with
  | nil => exact this
  | cons o ops ih => exact ih _ (this.run o)

theorem getCellValue_threshold {m : HashedWaveletOctree} (h : m.Inv) (j : Index 3) :
    (m.Allocated j → m.threshold.getCellValue j = clamp m.config.minLogOdds m.config.maxLogOdds (m.getCellValue j)) ∧
    (¬ m.Allocated j → m.threshold.getCellValue j = 0 ∧ m.getCellValue j = 0) := by
  rw [allocated_iff, getCellValue_eq h, getCellValue_eq h.threshold]
  have hcfg : m.threshold.config = m.config := rfl
  rw [hcfg]
  have hbl : m.threshold.blocks.getBlock (indexToBlockIndex m.config.treeHeight j) = _ :=
    SpatialHash.getBlock_mapBlocks m.blocks (indexToBlockIndex m.config.treeHeight j) fun _ b => b.threshold
  rw [hbl]
  cases e : m.blocks.getBlock (indexToBlockIndex m.config.treeHeight j) with
  | none => simp
  | some b =>
    simp only [Option.isSome_some, Option.map_some, forall_const, not_true_eq_false, false_implies, and_true]
    exact WaveletBlock.threshold_val (h.ok _ _ e) j

theorem allocated_threshold (m : HashedWaveletOctree) (j : Index 3) : m.threshold.Allocated j ↔ m.Allocated j := by
  rw [allocated_iff, allocated_iff]
  have hcfg : m.threshold.config = m.config := rfl
  rw [hcfg]
  have hbl : m.threshold.blocks.getBlock (indexToBlockIndex m.config.treeHeight j) = _ :=
    SpatialHash.getBlock_mapBlocks m.blocks (indexToBlockIndex m.config.treeHeight j) fun _ b => b.threshold
  rw [hbl]; simp

theorem region_block (H : Nat) (k j : Index 3) : NodeRegion (⟨H, k⟩ : NdtreeIndex 3) j ↔ InBlock H k j := by
  unfold NodeRegion InBlock
  simp only [Int.toNat_natCast, Int.mul_comm]

theorem block_leaves {b : WaveletBlock} {H : Nat} {lo hi : ℚ} (hb : b.Ok H lo hi) (k j : Index 3)
    (hr : NodeRegion (⟨H, k⟩ : NdtreeIndex 3) j) (he : b.empty = false) :
    ∃ n : NdtreeIndex 3, 0 ≤ n.height ∧ n.height < H ∧ NodeRegion n j ∧
      (b.forEachLeaf k 0).filter (fun e => decide (NodeRegion e.1 j)) = [(n, b.val j)] := by
  unfold WaveletBlock.forEachLeaf
  rw [he, hb.height]
  obtain ⟨n, h1, h2, h3, h4, h5, _⟩ := (WTree.leaves_filter (fun h => decide (0 < h)) H b.root hb.root hb.depth ⟨H, k⟩ rfl b.rootScale j).1 hr
  refine ⟨n, h1, h2, h3, ?_⟩
  simp only [Bool.false_eq_true, if_false]
  rw [h4]
  have : b.root.getValue b.rootScale ((cellPath H j).take (H - n.height.toNat)) = b.val j := by
    unfold WaveletBlock.val
    rw [hb.height]
    rcases h5 with h5 | h5
    · exact WTree.getValue_take _ _ _ _ h5
    · have : n.height.toNat = 0 := by simp at h5; omega
      rw [this, Nat.sub_zero, List.take_of_length_le (by rw [cellPath_length])]
  rw [this]

theorem block_leaves_outside {b : WaveletBlock} {H : Nat} {lo hi : ℚ} (hb : b.Ok H lo hi) (k j : Index 3)
    (hr : ¬ NodeRegion (⟨H, k⟩ : NdtreeIndex 3) j) :
    (b.forEachLeaf k 0).filter (fun e => decide (NodeRegion e.1 j)) = [] := by
  unfold WaveletBlock.forEachLeaf
  split
  · rfl
  · rw [hb.height]
    exact (WTree.leaves_filter (fun h => decide (0 < h)) H b.root hb.root hb.depth ⟨H, k⟩ rfl b.rootScale j).2 hr

theorem filter_blocks {m : HashedWaveletOctree} (h : m.Inv) (k j : Index 3) (hk : InBlock m.config.treeHeight k j)
    (b : WaveletBlock) (hb : m.blocks.getBlock k = some b) :
    (m.blocks.flatMap fun e => e.2.forEachLeaf e.1 0).filter (fun e => decide (NodeRegion e.1 j))
      = (b.forEachLeaf k 0).filter (fun e => decide (NodeRegion e.1 j)) := by
  have hok : ∀ e ∈ m.blocks, e.2.Ok m.config.treeHeight m.config.minLogOdds m.config.maxLogOdds :=
    fun e he => h.ok e.1 e.2 (SpatialHash.getBlock_of_mem h.nodup he)
  have hmem := SpatialHash.mem_of_getBlock hb
  have hn := h.nodup
  generalize m.blocks = bm at hok hmem hn
  rw [inBlock_iff] at hk
  have hout : ∀ bm' : SpatialHash 3 WaveletBlock, (∀ e ∈ bm', e.2.Ok m.config.treeHeight m.config.minLogOdds m.config.maxLogOdds) →
      k ∉ bm'.keys → (bm'.flatMap fun e => e.2.forEachLeaf e.1 0).filter (fun e => decide (NodeRegion e.1 j)) = [] := by
    intro bm' hok' hk'
    rw [List.filter_flatMap, List.flatMap_eq_nil_iff]
    intro e he
    apply block_leaves_outside (hok' e he)
    rw [region_block, inBlock_iff, hk]
    rintro rfl
    exact hk' (List.mem_map_of_mem he)
  induction bm with
  | nil => cases hmem
  | cons e bm ih =>
    simp only [SpatialHash.keys, List.map_cons, List.nodup_cons] at hn
    rw [List.flatMap_cons, List.filter_append]
    rcases List.mem_cons.1 hmem with rfl | hmem
    · rw [hout bm (fun e he => hok e (List.mem_cons_of_mem _ he)) hn.1, List.append_nil]
    · have : k ≠ e.1 := fun e' => hn.1 (e' ▸ List.mem_map_of_mem (f := Prod.fst) hmem)
      rw [block_leaves_outside (hok e List.mem_cons_self), List.nil_append]
      · exact ih (fun e he => hok e (List.mem_cons_of_mem _ he)) hmem hn.2
      · rw [region_block, inBlock_iff, hk]; exact this

/-- The map holds the table. -/
def Holds (m : HashedWaveletOctree) (t : CellTable) : Prop :=
  (∀ j, m.getCellValue j = t.value j) ∧ ∀ j, m.Allocated j ↔ t.allocated j = true

theorem Holds.write {m : HashedWaveletOctree} (h : m.Inv) {t : CellTable} (ht : m.Holds t) (w : HashedWaveletWrite) :
    (w.run m).Holds (w.spec m.config.treeHeight m.config.minLogOdds m.config.maxLogOdds t) := by
  have hval : m.getCellValue = t.value := funext ht.1
  have hadd : ∀ i u now, (m.addToCellValue i u now).Holds
      ⟨fun j => if j = i then t.value j + u else t.value j,
        fun j => t.allocated j || decide (SameBlock m.config.treeHeight i j)⟩ := by
    intro i u now
    refine ⟨fun j => ?_, fun j => ?_⟩
    · rw [getCellValue_add h, hval]
    · rw [allocated_add, ht.2 j]; simp
  cases w with
  | add i u now => exact hadd i u now
  | set i v now =>
    simp only [HashedWaveletWrite.run, set_eq_add h, hval]
    exact hadd i _ now
  | threshold =>
    refine ⟨fun j => ?_, fun j => ?_⟩
    · simp only [HashedWaveletWrite.run, HashedWaveletWrite.spec, ← ht.1 j]
      have := getCellValue_threshold h j
      by_cases ha : m.Allocated j
      · rw [if_pos ((ht.2 j).1 ha), this.1 ha, clamp_eq h.bounds]
      · rw [if_neg (fun e => ha ((ht.2 j).2 e)), (this.2 ha).1, (this.2 ha).2]
    · simp only [HashedWaveletWrite.run, HashedWaveletWrite.spec, allocated_threshold, ht.2 j]
  | clear =>
    refine ⟨fun j => ?_, fun j => ?_⟩
    · rw [getCellValue_eq (h.write .clear)]; rfl
    · rw [allocated_iff]
      simp [HashedWaveletWrite.run, HashedWaveletWrite.spec, HashedWaveletOctree.clear, CellTable.empty, SpatialHash.getBlock]

theorem run_config (m : HashedWaveletOctree) (o : HashedWaveletOp) : (o.run m).config = m.config := by
  cases o with
  | write w => cases w <;> rfl
  | prune => rfl
  | pruneSmart _ => rfl
  | eraseBlocks _ => rfl

theorem write_config (m : HashedWaveletOctree) (w : HashedWaveletWrite) : (w.run m).config = m.config := by
  cases w <;> rfl

end HashedWaveletOctree

/-! ## Properties -/

/-- C18, full refinement for the code as it is: after any sequence of adds, sets, thresholds and clears, over the
whole index space, every cell holds what the table holds and exactly the touched blocks are allocated.
Missing for the full property: `set` overwriting the previous value. -/
theorem C18_table_partial (config : HashedWaveletOctreeConfig) (hc : config.isValid = true) (hH : config.treeHeight ≤ 20)
    (ops : List HashedWaveletWrite) (j : Index 3) :
    let m := ops.foldl HashedWaveletWrite.run (.create config)
    let t := ops.foldl (HashedWaveletWrite.spec config.treeHeight config.minLogOdds config.maxLogOdds) .empty
    m.getCellValue j = t.value j ∧ (m.Allocated j ↔ t.allocated j = true) := by
  suffices ∀ (m : HashedWaveletOctree) t, m.config = config → m.Inv → m.Holds t →
      (ops.foldl HashedWaveletWrite.run m).Holds
        (ops.foldl (HashedWaveletWrite.spec config.treeHeight config.minLogOdds config.maxLogOdds) t) by
    have h := this _ .empty rfl (HashedWaveletOctree.Inv.create hc hH) ⟨fun j => ?_, fun j => ?_⟩
    · exact ⟨h.1 j, h.2 j⟩
    · rfl
    · rw [HashedWaveletOctree.allocated_iff]
      simp [HashedWaveletOctree.create, SpatialHash.getBlock, CellTable.empty]
  induction ops with
  | nil => intro m t _ _ h; exact h
  | cons o ops ih =>
    intro m t hm hi h
    subst hm
    exact ih _ _ (HashedWaveletOctree.write_config m o) (hi.write o) (h.write hi o)

/-- C18 for additions: after any sequence of additions, over the whole (signed) index space, each cell holds
the sum of what was added to it; cells never written read zero. -/
theorem C18_add_cells (config : HashedWaveletOctreeConfig) (hc : config.isValid = true) (hH : config.treeHeight ≤ 20)
    (ops : List (Index 3 × ℚ × ℚ)) (j : Index 3) :
    (ops.foldl (fun m o => m.addToCellValue o.1 o.2.1 o.2.2) (HashedWaveletOctree.create config)).getCellValue j
      = ((ops.filter fun o => decide (o.1 = j)).map fun o => o.2.1).sum := by
  suffices ∀ m : HashedWaveletOctree, m.Inv →
      (ops.foldl (fun m o => m.addToCellValue o.1 o.2.1 o.2.2) m).getCellValue j
        = m.getCellValue j + ((ops.filter fun o => decide (o.1 = j)).map fun o => o.2.1).sum by
    rw [this _ (HashedWaveletOctree.Inv.create hc hH)]
    have : (HashedWaveletOctree.create config).getCellValue j = 0 := rfl
    rw [this, zero_add]
  induction ops with
  | nil => intro m _; simp
  | cons o ops ih =>
    intro m hm
    rw [List.foldl_cons, ih _ (hm.add _ _ _), HashedWaveletOctree.getCellValue_add hm]
    by_cases h : o.1 = j
    · simp [h]; ring
    · have : ¬ j = o.1 := fun e => h e.symm
      simp [h, this]

/-- Each write to one cell leaves every other cell alone, in the same block or not, after any history. -/
theorem C18_write_local (m : HashedWaveletOctree) (hm : m.Reachable) (i j : Index 3) (hij : j ≠ i) (v now : ℚ) :
    (m.addToCellValue i v now).getCellValue j = m.getCellValue j ∧
      (m.setCellValue i v now).getCellValue j = m.getCellValue j := by
  have h := hm.inv
  rw [HashedWaveletOctree.set_eq_add h, HashedWaveletOctree.getCellValue_add h, HashedWaveletOctree.getCellValue_add h,
    if_neg hij, if_neg hij]
  exact ⟨rfl, rfl⟩

/-- `set` does what it says exactly when the mean of the eight cells of the cell's parent equals the cell's
value, after any history. Missing for the full property: other cases, which fail. -/
theorem C18_set_iff_partial (m : HashedWaveletOctree) (hm : m.Reachable) (i : Index 3) (v now : ℚ) :
    (m.setCellValue i v now).getCellValue i = v ↔ boxMean m.getCellValue 1 (fun k => i k / 2 * 2) = m.getCellValue i := by
  have h := hm.inv
  rw [HashedWaveletOctree.set_eq_add h, HashedWaveletOctree.getCellValue_add h, if_pos rfl]
  constructor
  · intro e; linarith
  · intro e; rw [e]; ring

/-- Finding: `setCellValue` does not overwrite. -/
theorem C18_set_overwrites_fails :
    ∃ (m : HashedWaveletOctree) (i : Index 3), m.Reachable ∧ m.getCellValue i = 1 ∧
      (m.setCellValue i 1 0).getCellValue i = 15 / 8 :=
  ⟨(HashedWaveletOctree.create ⟨1, -2, 4, 2, 5⟩).setCellValue (fun _ => -1) 1 0, fun _ => -1,
    ⟨⟨1, -2, 4, 2, 5⟩, by decide +kernel, by decide, [.write (.set (fun _ => -1) 1 0)], rfl⟩, by decide +kernel, by decide +kernel⟩

/-- Reading a coarser node returns the mean over its cells, after any history, for nodes up to the size of a block. -/
theorem C18_node_mean (m : HashedWaveletOctree) (hm : m.Reachable) (n : NdtreeIndex 3) (h0 : 0 ≤ n.height)
    (h1 : n.height ≤ m.config.treeHeight) :
    m.getNodeValue n = boxMean m.getCellValue n.height.toNat fun k => n.position k * 2 ^ n.height.toNat := by
  have h := hm.inv
  obtain ⟨a, ha⟩ : ∃ a : Nat, a + n.height.toNat = m.config.treeHeight := ⟨m.config.treeHeight - n.height.toNat, by omega⟩
  have e1 : ((m.config.treeHeight : Int) - n.height).toNat = a := by omega
  have hpow : (2 : Int) ^ m.config.treeHeight = 2 ^ a * 2 ^ n.height.toNat := by rw [← ha, Int.pow_add]
  have hpw := two_pow_pos' n.height.toNat
  have hpa := two_pow_pos' a
  have hcell : m.nodeToCellIndex n = ⟨n.height, fun k => n.position k % 2 ^ a⟩ := by
    unfold HashedWaveletOctree.nodeToCellIndex
    rw [e1]; congr 1; funext k
    exact divExp2FloorRemainder_eq _ _ (by have := h.le; omega)
  have hblk : ∀ k, m.nodeToBlockIndex n k = n.position k / 2 ^ a := by
    intro k
    simp only [HashedWaveletOctree.nodeToBlockIndex, indexToBlockIndex, nodeIndexToMinCornerIndex, divExp2Floor_eq,
      multExp2_eq, hpow]
    exact Int.mul_ediv_mul_of_pos_left _ _ hpw
  have hin : ∀ j, InBox n.height.toNat (fun k => n.position k * 2 ^ n.height.toNat) j →
      indexToBlockIndex m.config.treeHeight j = m.nodeToBlockIndex n := by
    intro j hj
    funext k
    rw [hblk]
    simp only [indexToBlockIndex, divExp2Floor_eq, hpow]
    rw [Int.mul_comm (2 ^ a), ← Int.ediv_ediv_of_nonneg (Int.le_of_lt hpw)]
    congr 1
    have hk := hj k
    rw [Int.ediv_eq_iff_of_pos hpw]
    constructor
    · nlinarith
    · nlinarith
  unfold HashedWaveletOctree.getNodeValue
  cases e : m.blocks.getBlock (m.nodeToBlockIndex n) with
  | none =>
    dsimp only
    rw [boxMean_congr (g := fun _ => 0), boxMean_const]
    intro j hj
    rw [HashedWaveletOctree.getCellValue_eq h, hin j hj, e]
  | some b =>
    dsimp only
    have hb := h.ok _ _ e
    rw [hcell]
    unfold WaveletBlock.getCellValue
    have hrep := WaveletBlock.represents hb.root (by rw [hb.height]; exact h.le)
    have hnode := Represents.node (by rw [hb.height]; exact h.le) hrep ⟨n.height, fun k => n.position k % 2 ^ a⟩
      ⟨h0, by simp only; rw [hb.height]; omega, fun k => by
        simp only
        have : b.treeHeight - n.height.toNat = a := by rw [hb.height]; omega
        rw [this]
        exact ⟨Int.emod_nonneg _ (Int.ne_of_gt hpa), Int.emod_lt_of_pos _ hpa⟩⟩
    rw [hnode]
    dsimp only
    have hper : b.val = fun j => b.val (fun k => j k - (2 ^ b.treeHeight * -(n.position k / 2 ^ a))) := by
      funext j
      rw [← b.val_periodic j (fun k => n.position k / 2 ^ a)]
      congr 1; funext k; ring
    have hcongr : boxMean m.getCellValue n.height.toNat (fun k => n.position k * 2 ^ n.height.toNat)
        = boxMean b.val n.height.toNat (fun k => n.position k * 2 ^ n.height.toNat) := by
      apply boxMean_congr
      intro j hj
      rw [HashedWaveletOctree.getCellValue_eq h, hin j hj, e]
    rw [hcongr]
    conv => lhs; rw [hper]
    rw [boxMean_shift]
    congr 1
    funext k
    rw [hb.height, hpow]
    have := Int.emod_add_mul_ediv (n.position k) (2 ^ a)
    generalize n.position k % 2 ^ a = r at *
    generalize n.position k / 2 ^ a = q at *
    rw [← this]; ring

/-- C20 finding: the wavelet maps do not clamp on add: adding 10 to a cell of a map with bounds [-2, 4] leaves 10
in it until the next `threshold`. -/
theorem C20_hashed_wavelet_add_clamped_fails :
    ∃ (m : HashedWaveletOctree) (i : Index 3), m.Reachable ∧ m.config.maxLogOdds = 4 ∧
      (m.addToCellValue i 10 0).getCellValue i = 10 :=
  ⟨HashedWaveletOctree.create ⟨1, -2, 4, 2, 5⟩, fun _ => -1,
    ⟨⟨1, -2, 4, 2, 5⟩, by decide +kernel, by decide, [], rfl⟩, rfl, by decide +kernel⟩

/-- C20, what does hold: an add followed by `threshold` leaves exactly the clamped sum, after any history.
Missing for the full property: the clamping happens at `threshold`, not at the add. -/
theorem C20_hashed_wavelet_add_threshold_partial (m : HashedWaveletOctree) (hm : m.Reachable) (i : Index 3) (u now : ℚ) :
    ((m.addToCellValue i u now).threshold).getCellValue i
      = max m.config.minLogOdds (min (m.getCellValue i + u) m.config.maxLogOdds) := by
  have h := hm.inv
  have h1 := (HashedWaveletOctree.getCellValue_threshold (h.add i u now) i).1
    ((HashedWaveletOctree.allocated_add m i u now i).2 (Or.inr ⟨_, (inBlock_iff _ _).2 rfl, (inBlock_iff _ _).2 rfl⟩))
  rw [h1, HashedWaveletOctree.getCellValue_add h, if_pos rfl]
  exact clamp_eq h.bounds _

/-- C21 for the hashed wavelet octree: after any history, thresholding clamps the value of every cell in an
allocated block and leaves the (zero) value of all others. -/
theorem C21_hashed_wavelet_clamps (m : HashedWaveletOctree) (hm : m.Reachable) (j : Index 3) :
    m.threshold.getCellValue j =
      if m.Allocated j then max m.config.minLogOdds (min (m.getCellValue j) m.config.maxLogOdds) else 0 := by
  have h := hm.inv
  have := HashedWaveletOctree.getCellValue_threshold h j
  by_cases ha : m.Allocated j
  · rw [if_pos ha, this.1 ha, clamp_eq h.bounds]
  · rw [if_neg ha, (this.2 ha).1]

/-- Thresholding twice is the same as once (the whole map state). -/
theorem C21_hashed_wavelet_idempotent (m : HashedWaveletOctree) : m.threshold.threshold = m.threshold := by
  unfold HashedWaveletOctree.threshold
  dsimp only
  congr 1
  unfold SpatialHash.mapBlocks
  rw [List.map_map]
  apply List.map_congr_left
  intro e _
  simp only [Function.comp]
  congr 1
  unfold WaveletBlock.threshold
  split
  · rfl
  · rfl

/-- The error bound of pruning: `19/8000` per level below the block's root, plus `1/1000` if the block gets erased. -/
def pruneErrorBound (H : Nat) : ℚ := 19 / 8000 * ((H - 1 : Nat) : ℚ) + 1 / 1000

theorem HashedWaveletOctree.eraseIf_error {m : HashedWaveletOctree} (h : m.Inv) (f : WaveletBlock → WaveletBlock)
    (hf : ∀ b : WaveletBlock, b.Ok m.config.treeHeight m.config.minLogOdds m.config.maxLogOdds →
      (f b).Ok m.config.treeHeight m.config.minLogOdds m.config.maxLogOdds) (j : Index 3) :
    (m.Allocated j → ∃ b : WaveletBlock, b.Ok m.config.treeHeight m.config.minLogOdds m.config.maxLogOdds ∧
      m.blocks.getBlock (indexToBlockIndex m.config.treeHeight j) = some b ∧ m.getCellValue j = b.val j ∧
      |HashedWaveletOctree.getCellValue { m with blocks := m.blocks.eraseBlockIf fun _ b => (f b, (f b).empty) } j
        - (f b).val j| < 1 / 1000) ∧
    (¬ m.Allocated j →
      HashedWaveletOctree.getCellValue { m with blocks := m.blocks.eraseBlockIf fun _ b => (f b, (f b).empty) } j = 0 ∧
      m.getCellValue j = 0) := by
  rw [allocated_iff, getCellValue_eq h, getCellValue_eq (h.eraseIf f hf)]
  dsimp only
  rw [SpatialHash.getBlock_eraseBlockIf _ h.nodup]
  cases e : m.blocks.getBlock (indexToBlockIndex m.config.treeHeight j) with
  | none => simp
  | some b =>
    have hb := h.ok _ _ e
    simp only [Option.isSome_some, not_true_eq_false, false_implies, and_true, forall_const, Option.bind_some]
    refine ⟨b, hb, rfl, rfl, ?_⟩
    by_cases he : (f b).empty = true
    · rw [if_pos he]
      simp only [zero_sub, abs_neg]
      exact WaveletBlock.empty_val (hf b hb).root he j
    · rw [if_neg he]
      simp

/-- C22, what does hold for the hashed wavelet octree: after any history, pruning replaces the value of each cell in an
allocated block by its clamped value up to `pruneErrorBound`, and changes no other cell.
Missing for the full property: pruning is not lossless (see `C22_hashed_wavelet_lossless_fails`). -/
theorem C22_hashed_wavelet_prune_partial (m : HashedWaveletOctree) (hm : m.Reachable) (j : Index 3) :
    (m.Allocated j → |m.prune.getCellValue j - max m.config.minLogOdds (min (m.getCellValue j) m.config.maxLogOdds)|
      < pruneErrorBound m.config.treeHeight) ∧
    (¬ m.Allocated j → m.prune.getCellValue j = m.getCellValue j) := by
  have h := hm.inv
  have := HashedWaveletOctree.eraseIf_error h WaveletBlock.prune (fun b hb => hb.prune h.bounds) j
  refine ⟨fun ha => ?_, fun ha => ?_⟩
  · obtain ⟨b, hb, _, hv, he⟩ := this.1 ha
    rw [hv, ← clamp_eq h.bounds]
    have h2 := WaveletBlock.prune_val hb j
    have h3 := abs_sub_le (m.prune.getCellValue j) (b.prune.val j) (clamp m.config.minLogOdds m.config.maxLogOdds (b.val j))
    unfold pruneErrorBound
    have he' : |m.prune.getCellValue j - b.prune.val j| < 1 / 1000 := he
    linarith
  · rw [(this.2 ha).2]; exact (this.2 ha).1

/-- The same for `pruneSmart`: each allocated block is either left alone or pruned, so a cell either changes by less
than `1/1000` or is clamped up to `pruneErrorBound`. Which of the two depends on the block's last update time.
Missing for the full property: as above. -/
theorem C22_hashed_wavelet_prune_smart_partial (m : HashedWaveletOctree) (hm : m.Reachable) (now : ℚ) (j : Index 3) :
    (m.Allocated j → |(m.pruneSmart now).getCellValue j - m.getCellValue j| < 1 / 1000 ∨
      |(m.pruneSmart now).getCellValue j - max m.config.minLogOdds (min (m.getCellValue j) m.config.maxLogOdds)|
        < pruneErrorBound m.config.treeHeight) ∧
    (¬ m.Allocated j → (m.pruneSmart now).getCellValue j = m.getCellValue j) := by
  have h := hm.inv
  have := HashedWaveletOctree.eraseIf_error h (fun b => b.pruneIf m now) (fun b hb => by
    unfold WaveletBlock.pruneIf
    split
    · exact hb.prune h.bounds
    · exact hb) j
  refine ⟨fun ha => ?_, fun ha => ?_⟩
  · obtain ⟨b, hb, _, hv, he⟩ := this.1 ha
    rw [hv, ← clamp_eq h.bounds]
    have he' : |(m.pruneSmart now).getCellValue j - (b.pruneIf m now).val j| < 1 / 1000 := he
    unfold WaveletBlock.pruneIf at he'
    split at he'
    · right
      have h2 := WaveletBlock.prune_val hb j
      have h3 := abs_sub_le ((m.pruneSmart now).getCellValue j) (b.prune.val j) (clamp m.config.minLogOdds m.config.maxLogOdds (b.val j))
      unfold pruneErrorBound
      linarith
    · left; exact he'
  · rw [(this.2 ha).2]; exact (this.2 ha).1

/-- `pruneSmart` leaves recently used blocks alone unless they are empty. -/
theorem C22_hashed_wavelet_prune_smart_recent (m : HashedWaveletOctree) (hm : m.Reachable) (now : ℚ) (k : Index 3) (b : WaveletBlock)
    (hb : m.blocks.getBlock k = some b) (hrecent : now - b.lastUpdated ≤ m.config.onlyPruneBlocksIfUnusedFor)
    (hne : b.empty = false) : (m.pruneSmart now).blocks.getBlock k = some b := by
  have h := hm.inv
  unfold HashedWaveletOctree.pruneSmart
  dsimp only
  rw [SpatialHash.getBlock_eraseBlockIf _ h.nodup, hb]
  have : b.pruneIf m now = b := by unfold WaveletBlock.pruneIf; rw [if_neg (not_lt.2 hrecent)]
  simp [this, hne]

/-- Pruning twice is the same as once (the whole map state). -/
theorem C22_hashed_wavelet_prune_idempotent (m : HashedWaveletOctree) : m.prune.prune = m.prune := by
  have hp : ∀ b : WaveletBlock, b.prune.prune = b.prune := by
    intro b
    by_cases h : b.needsPruning = true
    · have : b.prune.needsPruning = false := by unfold WaveletBlock.prune; rw [if_pos h]
      generalize b.prune = b' at this
      unfold WaveletBlock.prune
      rw [this]; simp
    · have : b.prune = b := by unfold WaveletBlock.prune; rw [if_neg h]
      rw [this, this]
  unfold HashedWaveletOctree.prune
  dsimp only
  congr 1
  unfold SpatialHash.eraseBlockIf
  rw [List.filterMap_filterMap]
  apply List.filterMap_congr
  intro e _
  dsimp only
  by_cases he : e.2.prune.empty = true
  · simp [he]
  · simp [he, hp]

/-- C22 finding: pruning is not lossless. In a map of height 2, one cell set to 1/1000 reads 1/1000 before pruning and
something else afterwards. -/
theorem C22_hashed_wavelet_lossless_fails :
    ∃ (m : HashedWaveletOctree) (i : Index 3), m.Reachable ∧
      m.config.minLogOdds ≤ m.getCellValue i ∧ m.getCellValue i ≤ m.config.maxLogOdds ∧
      m.prune.getCellValue i ≠ m.getCellValue i :=
  ⟨(HashedWaveletOctree.create ⟨1, -2, 4, 2, 5⟩).addToCellValue (fun _ => -1) (1 / 1000) 0, fun _ => -1,
    ⟨⟨1, -2, 4, 2, 5⟩, by decide +kernel, by decide, [.write (.add (fun _ => -1) (1 / 1000) 0)], rfl⟩,
    by decide +kernel, by decide +kernel, by decide +kernel⟩

theorem HashedWaveletOctree.Inv.leaves {m : HashedWaveletOctree} (h : m.Inv) (j : Index 3)
    (hj : ∃ k b, InBlock m.config.treeHeight k j ∧ m.blocks.getBlock k = some b ∧ b.empty = false) :
    ∃ n : NdtreeIndex 3, NodeRegion n j ∧ 0 ≤ n.height ∧ n.height < m.config.treeHeight ∧
      m.forEachLeaf.filter (fun e => decide (NodeRegion e.1 j)) = [(n, m.getCellValue j)] := by
  obtain ⟨k, b, hk, hb, he⟩ := hj
  obtain ⟨n, h1, h2, h3, h4⟩ := HashedWaveletOctree.block_leaves (h.ok k b hb) k j
    ((HashedWaveletOctree.region_block _ k j).2 hk) he
  refine ⟨n, h3, h1, h2, ?_⟩
  rw [HashedWaveletOctree.getCellValue_eq h, (inBlock_iff _ _).1 hk, hb, ← h4]
  exact HashedWaveletOctree.filter_blocks h k j hk b hb

theorem HashedWaveletOctree.Inv.leaves_disjoint {m : HashedWaveletOctree} (h : m.Inv) (j : Index 3) :
    (m.forEachLeaf.filter (fun e => decide (NodeRegion e.1 j))).length ≤ 1 ∧
      ((∃ e ∈ m.forEachLeaf, NodeRegion e.1 j) → m.Allocated j) := by
  cases hb : m.blocks.getBlock (indexToBlockIndex m.config.treeHeight j) with
  | none =>
    have hnil : m.forEachLeaf.filter (fun e => decide (NodeRegion e.1 j)) = [] := by
      unfold HashedWaveletOctree.forEachLeaf
      rw [List.filter_flatMap, List.flatMap_eq_nil_iff]
      intro e he
      apply HashedWaveletOctree.block_leaves_outside (h.ok e.1 e.2 (SpatialHash.getBlock_of_mem h.nodup he))
      rw [HashedWaveletOctree.region_block, inBlock_iff]
      intro hk
      rw [hk, SpatialHash.getBlock_of_mem h.nodup he] at hb; cases hb
    refine ⟨by rw [hnil]; simp, ?_⟩
    rintro ⟨e, he, hr⟩
    have : e ∈ m.forEachLeaf.filter (fun e => decide (NodeRegion e.1 j)) := List.mem_filter.2 ⟨he, by simpa using hr⟩
    rw [hnil] at this; cases this
  | some b =>
    refine ⟨?_, fun _ => (HashedWaveletOctree.allocated_iff m j).2 (by rw [hb]; rfl)⟩
    have hf := HashedWaveletOctree.filter_blocks h _ j ((inBlock_iff _ _).2 rfl) b hb
    unfold HashedWaveletOctree.forEachLeaf
    rw [hf]
    by_cases he : b.empty = true
    · unfold WaveletBlock.forEachLeaf; rw [if_pos he]; simp
    · obtain ⟨n, _, _, _, h4⟩ := HashedWaveletOctree.block_leaves (h.ok _ b hb) (indexToBlockIndex m.config.treeHeight j) j
        ((HashedWaveletOctree.region_block _ _ j).2 ((inBlock_iff _ _).2 rfl)) (by simpa using he)
      rw [h4]; simp

/-- C23 for the hashed wavelet octree: after any history, every cell of a non-empty allocated block lies in exactly one
reported leaf, and the value reported for that leaf is the one a point query returns for the cell. -/
theorem C23_hashed_wavelet_leaves (m : HashedWaveletOctree) (hm : m.Reachable) (j : Index 3)
    (hj : ∃ k b, InBlock m.config.treeHeight k j ∧ m.blocks.getBlock k = some b ∧ b.empty = false) :
    ∃ n : NdtreeIndex 3, NodeRegion n j ∧ 0 ≤ n.height ∧ n.height < m.config.treeHeight ∧
      m.forEachLeaf.filter (fun e => decide (NodeRegion e.1 j)) = [(n, m.getCellValue j)] :=
  hm.inv.leaves j hj

/-- Cells outside all reported leaves (not allocated, or in a block the map considers empty) read within `1/1000` of
zero, the classifier's threshold for "unobserved". -/
theorem C23_hashed_wavelet_unreported (m : HashedWaveletOctree) (hm : m.Reachable) (j : Index 3)
    (hj : ∀ e ∈ m.forEachLeaf, ¬ NodeRegion e.1 j) : |m.getCellValue j| < 1 / 1000 := by
  have h := hm.inv
  rw [HashedWaveletOctree.getCellValue_eq h]
  cases hb : m.blocks.getBlock (indexToBlockIndex m.config.treeHeight j) with
  | none => simp
  | some b =>
    by_cases he : b.empty = true
    · exact WaveletBlock.empty_val (h.ok _ _ hb).root he j
    · exfalso
      obtain ⟨n, h1, _, _, h4⟩ := C23_hashed_wavelet_leaves m hm j
        ⟨_, b, (inBlock_iff _ _).2 rfl, hb, by simpa using he⟩
      have : (n, m.getCellValue j) ∈ m.forEachLeaf.filter (fun e => decide (NodeRegion e.1 j)) := by rw [h4]; simp
      rw [List.mem_filter] at this
      exact hj _ this.1 (by simpa using this.2)

/-- Reported leaves lie inside allocated blocks, and are pairwise disjoint: no cell lies in two of them. -/
theorem C23_hashed_wavelet_disjoint (m : HashedWaveletOctree) (hm : m.Reachable) (j : Index 3) :
    (m.forEachLeaf.filter (fun e => decide (NodeRegion e.1 j))).length ≤ 1 ∧
      ((∃ e ∈ m.forEachLeaf, NodeRegion e.1 j) → m.Allocated j) :=
  hm.inv.leaves_disjoint j

/-- C21: thresholding does not change the set of leaves (or their order), provided the bounds allow observed values
on both sides of zero. -/
theorem C21_hashed_wavelet_leaf_set (m : HashedWaveletOctree) (hm : m.Reachable)
    (hlo : m.config.minLogOdds ≤ -(1 / 1000)) (hhi : 1 / 1000 ≤ m.config.maxLogOdds) :
    m.threshold.forEachLeaf.map Prod.fst = m.forEachLeaf.map Prod.fst := by
  have h := hm.inv
  unfold HashedWaveletOctree.forEachLeaf HashedWaveletOctree.threshold
  dsimp only
  rw [List.map_flatMap, List.map_flatMap]
  unfold SpatialHash.mapBlocks
  rw [List.flatMap_map]
  apply List.flatMap_congr
  intro e he
  exact WaveletBlock.threshold_leaves (h.ok _ _ (SpatialHash.getBlock_of_mem h.nodup he)) hlo hhi e.1

example : -- a reachable map, with negative indices and all operations, meeting the hypotheses of C23 and C21
    ∃ m : HashedWaveletOctree, m.Reachable ∧ m.Allocated (fun _ => -1) ∧ ¬ m.Allocated (fun _ => 0) ∧
      (∃ k b, InBlock m.config.treeHeight k (fun _ => -1) ∧ m.blocks.getBlock k = some b ∧ b.empty = false) ∧
      m.config.minLogOdds ≤ -(1 / 1000) ∧ 1 / 1000 ≤ m.config.maxLogOdds := by
  refine ⟨[HashedWaveletOp.write (.add (fun _ => -1) 10 0), .prune, .write (.set (fun _ => -2) 3 0), .write .threshold,
    .pruneSmart 1].foldl HashedWaveletOp.run (.create ⟨1, -2, 4, 2, 5⟩), ⟨_, by decide +kernel, by decide, _, rfl⟩,
    by decide +kernel, by decide +kernel, ?_, by decide +kernel, by decide +kernel⟩
  have h : ((([HashedWaveletOp.write (.add (fun _ => -1) 10 0), .prune, .write (.set (fun _ => -2) 3 0), .write .threshold,
    .pruneSmart 1].foldl HashedWaveletOp.run (.create ⟨1, -2, 4, 2, 5⟩)).blocks.getBlock (fun _ => -1)).map WaveletBlock.empty)
      = some false := by decide +kernel
  obtain ⟨b, hb, he⟩ := Option.map_eq_some_iff.1 h
  exact ⟨fun _ => -1, b, by decide +kernel, hb, he⟩

end Wavemap
