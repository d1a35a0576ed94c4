import Verif.Lemmas.SpatialHash
import Verif.Props.LinearIndex
/-!
# C15, C16 and the hashed-blocks parts of C20, C22, C23
-/
namespace Wavemap
variable {d log2 : Nat} {α : Type}

/-! ## Specification -/

/-- Cell `i` lies in the block with index `b` of a grid of blocks with `2^log2` cells per side. -/
def InBlock (log2 : Nat) (b i : Index d) : Prop :=
  ∀ k, 2 ^ log2 * b k ≤ i k ∧ i k < 2 ^ log2 * (b k + 1)

instance (log2 : Nat) (b i : Index d) : Decidable (InBlock log2 b i) := by
  unfold InBlock; infer_instance

/-- `i` and `j` lie in the same block. -/
def SameBlock (log2 : Nat) (i j : Index d) : Prop := ∃ b, InBlock log2 b i ∧ InBlock log2 b j

theorem inBlock_iff (b i : Index d) : InBlock log2 b i ↔ indexToBlockIndex log2 i = b := by
  constructor
  · intro h; funext k
    refine (divExp2Floor_iff _ _ _).2 ?_
    rw [Int.mul_comm, Int.mul_comm (b k + 1)]; exact h k
  · rintro rfl k
    have := (divExp2Floor_iff (i k) _ log2).1 rfl
    rw [Int.mul_comm, Int.mul_comm (_ + 1)] at this; exact this

theorem sameBlock_iff (i j : Index d) :
    SameBlock log2 i j ↔ indexToBlockIndex log2 j = indexToBlockIndex log2 i := by
  simp only [SameBlock, inBlock_iff]
  constructor
  · rintro ⟨b, rfl, h⟩; exact h
  · intro h; exact ⟨_, rfl, h⟩

instance (i j : Index d) : Decidable (SameBlock log2 i j) := decidable_of_iff' _ (sameBlock_iff i j)

/-- Operations of a user of the dense block hash. -/
inductive BlockHashOp (d : Nat) (α : Type) where
  | update (i : Index d) (f : α → α)
  | allocateBlock (b : Index d)
  | eraseBlock (b : Index d)
  | clear

/-- The operation on the modelled container. -/
def BlockHashOp.run (m : DenseBlockHash d log2 α) : BlockHashOp d α → DenseBlockHash d log2 α
  | .update i f => m.updateValue i f
  | .allocateBlock b => m.getOrAllocateBlock b
  | .eraseBlock b => m.eraseBlock b
  | .clear => m.clear

/-- The operation on a plain table with a value for every cell. -/
def BlockHashOp.spec (log2 : Nat) (dv : α) (t : Index d → α) : BlockHashOp d α → Index d → α
  | .update i f => fun j => if j = i then f (t i) else t j
  | .allocateBlock _ => t
  | .eraseBlock b => fun j => if InBlock log2 b j then dv else t j
  | .clear => fun _ => dv

/-- Which cells are present after the operation. -/
def BlockHashOp.present (log2 : Nat) (p : Index d → Prop) : BlockHashOp d α → Index d → Prop
  | .update i _ => fun j => SameBlock log2 i j ∨ p j
  | .allocateBlock b => fun j => InBlock log2 b j ∨ p j
  | .eraseBlock b => fun j => ¬ InBlock log2 b j ∧ p j
  | .clear => fun _ => False

/-! ## Helper lemmas -/

namespace DenseBlockHash

theorem getValue_getOrAllocateBlock (m : DenseBlockHash d log2 α) (b j : Index d) :
    (m.getOrAllocateBlock b).getValue j
      = if InBlock log2 b j then some (m.getValueOrDefault j) else m.getValue j := by
  simp only [getValue, getOrAllocateBlock, SpatialHash.getBlock_getOrAllocate, inBlock_iff,
    getValueOrDefault]
  by_cases h : indexToBlockIndex log2 j = b
  · subst h
    simp only [if_true]
    cases m.blockMap.getBlock (indexToBlockIndex log2 j) <;> rfl
  · simp [h]

theorem linear_toNat_inj (hl : log2 ≤ 30) (i j : Index d)
    (h : (indexToLinearIndex (2 ^ log2) (indexToCellIndex log2 i)).toNat
      = (indexToLinearIndex (2 ^ log2) (indexToCellIndex log2 j)).toNat) :
    indexToCellIndex log2 i = indexToCellIndex log2 j := by
  have hi := (C06_split_recombine log2 hl i).1
  have hj := (C06_split_recombine log2 hl j).1
  have hi' : ∀ k, 0 ≤ indexToCellIndex log2 i k ∧ indexToCellIndex log2 i k < (2 ^ log2 : Nat) := by
    intro k; exact_mod_cast hi k
  have hj' : ∀ k, 0 ≤ indexToCellIndex log2 j k ∧ indexToCellIndex log2 j k < (2 ^ log2 : Nat) := by
    intro k; exact_mod_cast hj k
  refine C05_injective (2 ^ log2) _ _ hi' hj' ?_
  have a := (C05_cell_roundtrip (2 ^ log2) _ hi').1
  have b := (C05_cell_roundtrip (2 ^ log2) _ hj').1
  omega

theorem index_ext (hl : log2 ≤ 30) (i j : Index d)
    (hb : indexToBlockIndex log2 i = indexToBlockIndex log2 j)
    (hc : indexToCellIndex log2 i = indexToCellIndex log2 j) : i = j := by
  rw [← (C06_split_recombine log2 hl i).2, ← (C06_split_recombine log2 hl j).2, hb, hc]

theorem getValue_updateValue (hl : log2 ≤ 30) (m : DenseBlockHash d log2 α) (i j : Index d)
    (f : α → α) :
    (m.updateValue i f).getValue j
      = if j = i then some (f (m.getValueOrDefault i))
        else if SameBlock log2 i j then some (m.getValueOrDefault j) else m.getValue j := by
  have key := getValue_getOrAllocateBlock m (indexToBlockIndex log2 i) j
  simp only [inBlock_iff] at key
  simp only [sameBlock_iff]
  unfold updateValue
  simp only [getValue, SpatialHash.getBlock_modify] at key ⊢
  by_cases hb : indexToBlockIndex log2 j = indexToBlockIndex log2 i
  · simp only [hb, if_true] at key ⊢
    obtain ⟨g, hg, hgj⟩ := Option.map_eq_some_iff.1 key
    rw [hg]
    simp only [Option.map_some]
    by_cases hij : j = i
    · subst hij
      simp only [if_true, DenseGrid.at, DenseGrid.setAt]
      rw [← hgj]; rfl
    · simp only [hij, if_false, ← hgj, DenseGrid.at, DenseGrid.setAt]
      rw [if_neg]
      intro e
      exact hij (index_ext hl _ _ hb (linear_toNat_inj hl _ _ e))
  · have hij : j ≠ i := fun e => hb (by rw [e])
    simp only [hb, hij, if_false] at key ⊢
    exact key

theorem getValue_eraseBlock (m : DenseBlockHash d log2 α) (b j : Index d) :
    (m.eraseBlock b).getValue j = if InBlock log2 b j then none else m.getValue j := by
  simp only [getValue, eraseBlock, SpatialHash.getBlock_erase, inBlock_iff]
  by_cases h : indexToBlockIndex log2 j = b <;> simp [h]

theorem getValueOrDefault_eq (m : DenseBlockHash d log2 α) (j : Index d) :
    m.getValueOrDefault j = (m.getValue j).getD m.defaultValue := by
  unfold getValueOrDefault; cases m.getValue j <;> rfl

theorem run_default (m : DenseBlockHash d log2 α) (o : BlockHashOp d α) :
    (o.run m).defaultValue = m.defaultValue := by
  cases o <;> rfl

theorem run_spec (hl : log2 ≤ 30) (m : DenseBlockHash d log2 α) (o : BlockHashOp d α) (j : Index d) :
    (o.run m).getValueOrDefault j = o.spec log2 m.defaultValue m.getValueOrDefault j ∧
      ((o.run m).hasValue j = true ↔ o.present log2 (fun j => m.hasValue j = true) j) := by
  rw [getValueOrDefault_eq, run_default]
  cases o with
  | update i f =>
    simp only [BlockHashOp.run, BlockHashOp.spec, BlockHashOp.present, hasValue,
      getValue_updateValue hl]
    by_cases hij : j = i
    · subst hij
      simp [(sameBlock_iff (log2 := log2) j j).2 rfl]
    · by_cases hb : SameBlock log2 i j
      · simp [hij, hb]
      · simp [hij, hb, getValueOrDefault_eq]
  | allocateBlock b =>
    simp only [BlockHashOp.run, BlockHashOp.spec, BlockHashOp.present, hasValue,
      getValue_getOrAllocateBlock]
    by_cases hb : InBlock log2 b j
    · simp [hb]
    · simp [hb, getValueOrDefault_eq]
  | eraseBlock b =>
    simp only [BlockHashOp.run, BlockHashOp.spec, BlockHashOp.present, hasValue,
      getValue_eraseBlock]
    by_cases hb : InBlock log2 b j
    · simp [hb]
    · simp [hb, getValueOrDefault_eq]
  | clear => simp [BlockHashOp.run, BlockHashOp.spec, BlockHashOp.present, hasValue, getValue, clear,
      SpatialHash.getBlock]

theorem spec_congr (dv : α) (t t' : Index d → α) (h : ∀ j, t j = t' j) (o : BlockHashOp d α) (j : Index d) :
    o.spec log2 dv t j = o.spec log2 dv t' j := by
  have : t = t' := funext h
  rw [this]

/-- No block index occurs twice. -/
def Wf (m : DenseBlockHash d log2 α) : Prop := m.blockMap.keys.Nodup

theorem Wf.run {m : DenseBlockHash d log2 α} (h : m.Wf) (o : BlockHashOp d α) : (o.run m).Wf := by
  cases o with
  | update i f =>
    unfold Wf
    simp only [BlockHashOp.run, updateValue, SpatialHash.keys_modify]
    exact SpatialHash.keys_getOrAllocate _ _ _ h
  | allocateBlock b => exact SpatialHash.keys_getOrAllocate _ _ _ h
  | eraseBlock b => exact SpatialHash.keys_erase _ _ h
  | clear => exact List.nodup_nil

end DenseBlockHash

/-! ## C15 Dense block hash -/

/-- After any sequence of writes, allocations, block erasures and clears, reading a cell gives what a
plain table gives that was updated by the same operations, and a cell is reported as present exactly if
its block was created and not erased since. -/
theorem C15_total_function (hl : log2 ≤ 30) (dv : α) (ops : List (BlockHashOp d α)) (j : Index d) :
    (ops.foldl BlockHashOp.run (DenseBlockHash.create dv : DenseBlockHash d log2 α)).getValueOrDefault j
        = ops.foldl (BlockHashOp.spec log2 dv) (fun _ => dv) j ∧
      ((ops.foldl BlockHashOp.run (DenseBlockHash.create dv : DenseBlockHash d log2 α)).hasValue j = true
        ↔ ops.foldl (BlockHashOp.present log2) (fun _ => False) j) := by
  suffices h : ∀ (m : DenseBlockHash d log2 α) (t : Index d → α) (p : Index d → Prop),
      m.defaultValue = dv → m.getValueOrDefault = t → (fun j => m.hasValue j = true) = p →
      (ops.foldl BlockHashOp.run m).getValueOrDefault j = ops.foldl (BlockHashOp.spec log2 dv) t j ∧
      ((ops.foldl BlockHashOp.run m).hasValue j = true ↔ ops.foldl (BlockHashOp.present log2) p j) by
    refine h _ _ _ rfl (funext fun _ => rfl) (funext fun _ => ?_)
    simp [DenseBlockHash.hasValue, DenseBlockHash.getValue, DenseBlockHash.create,
      SpatialHash.getBlock]
  induction ops with
  | nil => rintro m t p rfl rfl rfl; simp
  | cons o ops ih =>
    rintro m t p rfl rfl rfl
    simp only [List.foldl_cons]
    refine ih _ _ _ (DenseBlockHash.run_default m o) ?_ ?_
    · funext j; exact (DenseBlockHash.run_spec hl m o j).1
    · funext j; exact propext (DenseBlockHash.run_spec hl m o j).2

/-- All accesses to the storage of a block are inside its array. -/
theorem C15_in_bounds (hl : log2 ≤ 30) (i : Index d) :
    (indexToLinearIndex (2 ^ log2) (indexToCellIndex log2 i)).toNat
      < DenseGrid.cellsPerBlock d log2 := by
  have hi : ∀ k, 0 ≤ indexToCellIndex log2 i k ∧ indexToCellIndex log2 i k < (2 ^ log2 : Nat) := by
    intro k; exact_mod_cast (C06_split_recombine log2 hl i).1 k
  have h := C05_cell_roundtrip (2 ^ log2) _ hi
  have h2 : (((2 ^ log2 : Nat) : Int) ^ d) = ((2 ^ (d * log2) : Nat) : Int) := by
    rw [Nat.mul_comm, Nat.pow_mul]; push_cast; rfl
  rw [h2] at h
  have e : DenseGrid.cellsPerBlock d log2 = 2 ^ (d * log2) := by
    simp [DenseGrid.cellsPerBlock, exp2, Nat.shiftLeft_eq]
  rw [e]
  omega

/-- Reading a cell of an existing block, the entry found is a direct special case: a write to one cell
leaves every other cell as it was. -/
theorem C15_frame (hl : log2 ≤ 30) (m : DenseBlockHash d log2 α) (i j : Index d) (v : α) (h : j ≠ i) :
    (m.updateValue i fun _ => v).getValueOrDefault j = m.getValueOrDefault j ∧
      (m.updateValue i fun _ => v).getValueOrDefault i = v := by
  have a := (DenseBlockHash.run_spec hl m (.update i fun _ => v) j).1
  have b := (DenseBlockHash.run_spec hl m (.update i fun _ => v) i).1
  simp only [BlockHashOp.run, BlockHashOp.spec, h, if_false, if_true] at a b
  exact ⟨a, b⟩

example : -- a history with writes in two blocks (one with negative indices), an overwrite and an erase
    let ops : List (BlockHashOp 2 Nat) := [.update ![-1, 3] fun _ => 5, .update ![4, 3] fun v => v + 7,
      .update ![-1, 3] fun v => v * 2, .eraseBlock ![1, 0], .allocateBlock ![9, 9]]
    let m := ops.foldl BlockHashOp.run (DenseBlockHash.create 1 : DenseBlockHash 2 2 Nat)
    m.getValueOrDefault ![-1, 3] = 10 ∧ m.getValueOrDefault ![4, 3] = 1 ∧
      m.hasValue ![4, 3] = false ∧ m.hasValue ![-2, 1] = true ∧ m.getValueOrDefault ![-2, 1] = 1 := by
  decide +kernel

/-! ## C16 HashedBlocks -/

/-- Operations of a user of the hashed-blocks map. -/
inductive HashedBlocksOp where
  | set (i : Index 3) (v : ℚ)
  | add (i : Index 3) (u : ℚ)
  | threshold
  | prune
  | clear

/-- The operation on the modelled map. -/
def HashedBlocksOp.run (m : HashedBlocks) : HashedBlocksOp → HashedBlocks
  | .set i v => m.setCellValue i v
  | .add i u => m.addToCellValue i u
  | .threshold => m.threshold
  | .prune => m.prune
  | .clear => m.clear

/-- The operation on a plain table. -/
def HashedBlocksOp.spec (lo hi dv : ℚ) (t : Index 3 → ℚ) : HashedBlocksOp → Index 3 → ℚ
  | .set i v => fun j => if j = i then v else t j
  | .add i u => fun j => if j = i then max lo (min (t i + u) hi) else t j
  | .threshold => t
  | .prune => t
  | .clear => fun _ => dv

theorem clamp_eq {lo hi : ℚ} (h : lo ≤ hi) (v : ℚ) : clamp lo hi v = max lo (min v hi) := by
  unfold clamp
  rcases lt_or_ge v lo with h1 | h1
  · rw [if_pos h1, min_eq_left (by linarith), max_eq_left h1.le]
  · rw [if_neg (not_lt.2 h1)]
    rcases lt_or_ge hi v with h2 | h2
    · rw [if_pos h2, min_eq_right h2.le, max_eq_right h]
    · rw [if_neg (not_lt.2 h2), min_eq_left h2, max_eq_right h1]

namespace HashedBlocks

/-- No block index occurs twice. -/
def Wf (m : HashedBlocks) : Prop := m.hash.Wf

theorem Wf.run {m : HashedBlocks} (h : m.Wf) (o : HashedBlocksOp) : (o.run m).Wf := by
  cases o with
  | set i v => exact DenseBlockHash.Wf.run (m := m.hash) h (.update i _)
  | add i u => exact DenseBlockHash.Wf.run (m := m.hash) h (.update i _)
  | threshold => exact h
  | prune =>
    unfold Wf DenseBlockHash.Wf HashedBlocksOp.run HashedBlocks.prune
    dsimp only
    apply SpatialHash.keys_eraseBlockIf
    exact h
  | clear => exact List.nodup_nil

theorem run_config (m : HashedBlocks) (o : HashedBlocksOp) :
    (o.run m).config = m.config ∧ (o.run m).hash.defaultValue = m.hash.defaultValue := by
  cases o <;> exact ⟨rfl, rfl⟩

theorem getCellValue_prune {m : HashedBlocks} (h : m.Wf) (j : Index 3) :
    m.prune.getCellValue j = m.getCellValue j := by
  simp only [getCellValue, prune, DenseBlockHash.getValueOrDefault_eq, DenseBlockHash.getValue]
  rw [SpatialHash.getBlock_eraseBlockIf _ h]
  cases hb : m.hash.blockMap.getBlock (indexToBlockIndex 4 j) with
  | none => rfl
  | some b =>
    simp only [Option.bind_some]
    split
    · next hall =>
      simp only [List.all_eq_true, List.mem_range, decide_eq_true_eq] at hall
      have := hall _ (C15_in_bounds (by decide) j)
      simp only [Option.map_none, Option.getD_none, Option.map_some, Option.getD_some, DenseGrid.at]
      exact this.symm
    · rfl

theorem run_spec {m : HashedBlocks} (hw : m.Wf) (hc : m.config.minLogOdds ≤ m.config.maxLogOdds)
    (o : HashedBlocksOp) (j : Index 3) :
    (o.run m).getCellValue j = o.spec m.config.minLogOdds m.config.maxLogOdds m.hash.defaultValue
      m.getCellValue j := by
  cases o with
  | set i v => exact (DenseBlockHash.run_spec (by decide) m.hash (.update i fun _ => v) j).1
  | add i u =>
    have := (DenseBlockHash.run_spec (by decide) m.hash
      (.update i fun v => clamp m.config.minLogOdds m.config.maxLogOdds (v + u)) j).1
    simp only [BlockHashOp.spec] at this
    rw [clamp_eq hc] at this
    exact this
  | threshold => rfl
  | prune => exact getCellValue_prune hw j
  | clear => rfl

end HashedBlocks

/-- After any sequence of set, add, threshold, prune and clear operations, every cell holds what a plain
table updated by the same operations holds. -/
theorem C16_hashed_blocks_is_table (config : MapBaseConfig) (hc : config.isValid = true) (dv : ℚ)
    (ops : List HashedBlocksOp) (j : Index 3) :
    (ops.foldl HashedBlocksOp.run (HashedBlocks.create config dv)).getCellValue j
      = ops.foldl (HashedBlocksOp.spec config.minLogOdds config.maxLogOdds dv) (fun _ => dv) j := by
  have hlo : config.minLogOdds ≤ config.maxLogOdds := by
    simp only [MapBaseConfig.isValid, Bool.and_eq_true, decide_eq_true_eq] at hc; exact hc.2.le
  suffices h : ∀ (m : HashedBlocks) (t : Index 3 → ℚ), m.Wf → m.config = config →
      m.hash.defaultValue = dv → m.getCellValue = t →
      (ops.foldl HashedBlocksOp.run m).getCellValue j
        = ops.foldl (HashedBlocksOp.spec config.minLogOdds config.maxLogOdds dv) t j from
    h _ _ List.nodup_nil rfl rfl (funext fun _ => rfl)
  induction ops with
  | nil => rintro m t _ _ _ rfl; rfl
  | cons o ops ih =>
    rintro m t hw rfl rfl rfl
    simp only [List.foldl_cons]
    exact ih _ _ (hw.run o) (HashedBlocks.run_config m o).1 (HashedBlocks.run_config m o).2
      (funext fun j => HashedBlocks.run_spec hw hlo o j)

example : -- saturating adds in a block with negative indices, then a prune
    let ops : List HashedBlocksOp := [.add ![-1, 2, 3] 3, .add ![-1, 2, 3] (-1), .set ![40, 0, 0] 9, .prune]
    let m := ops.foldl HashedBlocksOp.run (HashedBlocks.create ⟨1, -2, 2⟩ 0)
    (⟨1, -2, 2⟩ : MapBaseConfig).isValid = true ∧
    m.getCellValue ![-1, 2, 3] = 1 ∧ m.getCellValue ![40, 0, 0] = 9 ∧ m.getCellValue ![5, 5, 5] = 0 := by
  have h := C16_hashed_blocks_is_table ⟨1, -2, 2⟩ (by decide) 0
    [.add ![-1, 2, 3] 3, .add ![-1, 2, 3] (-1), .set ![40, 0, 0] 9, .prune]
  refine ⟨by decide, ?_, ?_, ?_⟩ <;> rw [h] <;> decide +kernel

/-! ## C20 Saturation (hashed blocks) -/

/-- Adding to a cell stores the clamped sum, which lies in the configured bounds whatever the cell held. -/
theorem C20_hashed_blocks_add_clamped (m : HashedBlocks)
    (hc : m.config.isValid = true) (i : Index 3) (u : ℚ) :
    let v := (m.addToCellValue i u).getCellValue i
    v = max m.config.minLogOdds (min (m.getCellValue i + u) m.config.maxLogOdds) ∧
      m.config.minLogOdds ≤ v ∧ v ≤ m.config.maxLogOdds := by
  have hlo : m.config.minLogOdds ≤ m.config.maxLogOdds := by
    simp only [MapBaseConfig.isValid, Bool.and_eq_true, decide_eq_true_eq] at hc; exact hc.2.le
  intro v
  have hv : v = max m.config.minLogOdds (min (m.getCellValue i + u) m.config.maxLogOdds) := by
    have := (DenseBlockHash.run_spec (by decide) m.hash
      (.update i fun v => clamp m.config.minLogOdds m.config.maxLogOdds (v + u)) i).1
    simp only [BlockHashOp.spec, if_true] at this
    rw [clamp_eq hlo] at this
    exact this
  refine ⟨hv, ?_, ?_⟩
  · rw [hv]; exact le_max_left _ _
  · rw [hv]; exact max_le hlo (min_le_right _ _)

/-- Adding `n` times to one cell. -/
def HashedBlocks.addTimes (m : HashedBlocks) (i : Index 3) (u : ℚ) : Nat → HashedBlocks
  | 0 => m
  | n + 1 => (m.addTimes i u n).addToCellValue i u

theorem HashedBlocks.addTimes_config (m : HashedBlocks) (i : Index 3) (u : ℚ) (n : Nat) :
    (m.addTimes i u n).config = m.config := by
  induction n with
  | zero => rfl
  | succ n ih => exact ih

/-- Saturation is not sticky: from any cell value in bounds, repeating an update `u > 0` at least
`(target - min)/u` times brings the cell to at least any target within the bounds (and symmetrically
downwards), so the number of steps is bounded independently of the history. -/
theorem C20_hashed_blocks_recovers (m : HashedBlocks) (hc : m.config.isValid = true) (i : Index 3)
    (hv : m.config.minLogOdds ≤ m.getCellValue i ∧ m.getCellValue i ≤ m.config.maxLogOdds)
    (u target : ℚ) (n : Nat) :
    (target ≤ m.config.maxLogOdds → 0 < u → target - m.config.minLogOdds ≤ n * u →
        target ≤ (m.addTimes i u n).getCellValue i) ∧
      (m.config.minLogOdds ≤ target → u < 0 → m.config.maxLogOdds - target ≤ n * -u →
        (m.addTimes i u n).getCellValue i ≤ target) := by
  have hlo : m.config.minLogOdds ≤ m.config.maxLogOdds := hv.1.trans hv.2
  constructor
  · intro ht hu hn
    suffices min target (m.config.minLogOdds + n * u) ≤ (m.addTimes i u n).getCellValue i by
      rw [min_eq_left (by linarith)] at this; exact this
    clear hn
    induction n with
    | zero => simp only [HashedBlocks.addTimes, Nat.cast_zero, zero_mul, add_zero]; exact (min_le_right _ _).trans hv.1
    | succ n ih =>
      have h := (C20_hashed_blocks_add_clamped (m.addTimes i u n)
        (by rw [HashedBlocks.addTimes_config]; exact hc) i u).1
      rw [HashedBlocks.addTimes_config] at h
      simp only [HashedBlocks.addTimes]
      rw [h]
      refine le_max_of_le_right (le_min ?_ ((min_le_left _ _).trans ht))
      push_cast
      have h1 := min_le_left target (m.config.minLogOdds + ((n : ℚ) + 1) * u)
      have h2 := min_le_right target (m.config.minLogOdds + ((n : ℚ) + 1) * u)
      rcases min_le_iff.1 ih with h | h <;> linarith
  · intro ht hu hn
    suffices (m.addTimes i u n).getCellValue i ≤ max target (m.config.maxLogOdds + n * u) by
      rw [max_eq_left (by linarith)] at this; exact this
    clear hn
    induction n with
    | zero => simp only [HashedBlocks.addTimes, Nat.cast_zero, zero_mul, add_zero]; exact hv.2.trans (le_max_right _ _)
    | succ n ih =>
      have h := (C20_hashed_blocks_add_clamped (m.addTimes i u n)
        (by rw [HashedBlocks.addTimes_config]; exact hc) i u).1
      rw [HashedBlocks.addTimes_config] at h
      simp only [HashedBlocks.addTimes]
      rw [h]
      refine max_le (ht.trans (le_max_left _ _)) ((min_le_left _ _).trans ?_)
      push_cast
      have h1 := le_max_left target (m.config.maxLogOdds + ((n : ℚ) + 1) * u)
      have h2 := le_max_right target (m.config.maxLogOdds + ((n : ℚ) + 1) * u)
      rcases le_max_iff.1 ih with h | h <;> linarith

example : ∃ m : HashedBlocks, m.config.isValid = true ∧
    m.config.minLogOdds ≤ m.getCellValue ![0, 0, -7] ∧ m.getCellValue ![0, 0, -7] ≤ m.config.maxLogOdds ∧
    m.getCellValue ![0, 0, -7] = 2 :=
  ⟨(HashedBlocks.create ⟨1, -2, 2⟩ 0).addToCellValue ![0, 0, -7] 5, by decide +kernel, by decide +kernel, by decide +kernel, by decide +kernel⟩

/-! ## C22 Pruning (hashed blocks) -/

/-- Pruning does not change the value of any cell. `Wf` (no duplicate block index) holds for every
reachable map, see `C22_hashed_blocks_reachable`. -/
theorem C22_hashed_blocks_prune (m : HashedBlocks) (hw : m.Wf) (j : Index 3) :
    m.prune.getCellValue j = m.getCellValue j := HashedBlocks.getCellValue_prune hw j

/-- Every map reached by operations satisfies the invariant. -/
theorem C22_hashed_blocks_reachable (config : MapBaseConfig) (dv : ℚ) (ops : List HashedBlocksOp) :
    (ops.foldl HashedBlocksOp.run (HashedBlocks.create config dv)).Wf := by
  suffices ∀ m : HashedBlocks, m.Wf → (ops.foldl HashedBlocksOp.run m).Wf from this _ List.nodup_nil
  induction ops with
  | nil => intro m h; exact h
  | cons o ops ih => intro m h; exact ih _ (h.run o)

/-- After pruning, no allocated block consists of default values only. -/
theorem C22_hashed_blocks_prune_complete (m : HashedBlocks) (e : Index 3 × DenseGrid ℚ)
    (he : e ∈ m.prune.hash.blockMap) :
    ∃ l < DenseGrid.cellsPerBlock 3 4, e.2 l ≠ m.hash.defaultValue := by
  simp only [HashedBlocks.prune, SpatialHash.eraseBlockIf, List.mem_filterMap] at he
  obtain ⟨x, _, hx⟩ := he
  split at hx
  · cases hx
  · next h =>
    cases hx
    simpa using h

/-! ## C23 Leaf enumeration (dense blocks) -/

/-- Visiting all leaves reports every cell of every allocated block exactly once with the value a
point query returns, and no other cell. -/
theorem C23_dense_block_hash_leaves (hl : log2 ≤ 30) [DecidableEq α] (m : DenseBlockHash d log2 α)
    (hw : m.Wf) (j : Index d) :
    m.forEachLeaf.filter (fun e => decide (e.1 = j))
      = if m.hasValue j then [(j, m.getValueOrDefault j)] else [] := by
  have block : ∀ (b : Index d) (g : DenseGrid α),
      ((List.range (DenseGrid.cellsPerBlock d log2)).map fun l =>
        (cellAndBlockIndexToIndex (2 ^ log2) b (linearIndexToIndex (2 ^ log2) d l), g l)).filter
          (fun e => decide (e.1 = j))
        = if InBlock log2 b j then [(j, g.at log2 (indexToCellIndex log2 j))] else [] := by
    intro b g
    rw [List.filter_map]
    have hcells : DenseGrid.cellsPerBlock d log2 = (2 ^ log2) ^ d := by
      simp [DenseGrid.cellsPerBlock, exp2, Nat.shiftLeft_eq, ← Nat.pow_mul, Nat.mul_comm]
    have hiff : ∀ l, l < DenseGrid.cellsPerBlock d log2 →
        (cellAndBlockIndexToIndex (2 ^ log2) b (linearIndexToIndex (2 ^ log2) d l) = j ↔
          InBlock log2 b j ∧ l = (indexToLinearIndex (2 ^ log2) (indexToCellIndex log2 j)).toNat) := by
      intro l hlt
      rw [hcells] at hlt
      have hr := C05_linear_roundtrip (d := d) (2 ^ log2) l (Nat.two_pow_pos _) hlt
      have hr' : ∀ i, 0 ≤ linearIndexToIndex (2 ^ log2) d l i ∧
          linearIndexToIndex (2 ^ log2) d l i < 2 ^ log2 := by
        intro i; exact_mod_cast hr.1 i
      have hu := C06_unique log2 hl b _ hr'
      rw [inBlock_iff]
      constructor
      · rintro rfl
        exact ⟨hu.1, by rw [hu.2, hr.2]; rfl⟩
      · rintro ⟨hb, rfl⟩
        have hi : ∀ k, 0 ≤ indexToCellIndex log2 j k ∧ indexToCellIndex log2 j k < (2 ^ log2 : Nat) := by
          intro k; exact_mod_cast (C06_split_recombine log2 hl j).1 k
        rw [(C05_cell_roundtrip (2 ^ log2) _ hi).2.2, ← hb]
        exact (C06_split_recombine log2 hl j).2
    by_cases hb : InBlock log2 b j
    · rw [if_pos hb]
      have : (List.range (DenseGrid.cellsPerBlock d log2)).filter
          ((fun e : Index d × α => decide (e.1 = j)) ∘ fun l =>
            (cellAndBlockIndexToIndex (2 ^ log2) b (linearIndexToIndex (2 ^ log2) d l), g l))
          = [(indexToLinearIndex (2 ^ log2) (indexToCellIndex log2 j)).toNat] := by
        have hlt := C15_in_bounds hl j
        rw [show (List.range (DenseGrid.cellsPerBlock d log2)).filter _
            = (List.range (DenseGrid.cellsPerBlock d log2)).filter
              (fun l => l == (indexToLinearIndex (2 ^ log2) (indexToCellIndex log2 j)).toNat) from
          List.filter_congr fun l hm => by
            have := hiff l (List.mem_range.1 hm)
            simp only [Function.comp, this, hb, true_and]
            by_cases h : l = (indexToLinearIndex (2 ^ log2) (indexToCellIndex log2 j)).toNat <;> simp [h]]
        rw [List.filter_beq, List.count_eq_one_of_mem List.nodup_range (List.mem_range.2 hlt)]
        rfl
      rw [this]
      have hlt := C15_in_bounds hl j
      simp only [List.map_cons, List.map_nil, (hiff _ hlt).2 ⟨hb, rfl⟩, DenseGrid.at]
    · rw [if_neg hb]
      rw [List.filter_eq_nil_iff.2, List.map_nil]
      intro l hm
      have := hiff l (List.mem_range.1 hm)
      simp [Function.comp, this, hb]
  unfold DenseBlockHash.Wf at hw
  simp only [DenseBlockHash.forEachLeaf, DenseBlockHash.hasValue, DenseBlockHash.getValueOrDefault_eq,
    DenseBlockHash.getValue, List.filter_flatMap, block]
  generalize m.blockMap = bm at hw
  induction bm with
  | nil => simp [SpatialHash.getBlock]
  | cons e bm ih =>
    obtain ⟨b, g⟩ := e
    simp only [SpatialHash.keys, List.map_cons, List.nodup_cons] at hw
    have ih := ih hw.2
    rw [List.flatMap_cons, ih]
    simp only [SpatialHash.getBlock, inBlock_iff]
    by_cases h : b = indexToBlockIndex log2 j
    · subst h
      simp [SpatialHash.getBlock_eq_none.2 hw.1]
    · simp [h, Ne.symm h]

/-- The same for the hashed-blocks map: its leaves are the height-0 nodes of all cells of all allocated
blocks, each exactly once, with the value returned by a point query; cells that are not reported read as the
default value. -/
theorem C23_hashed_blocks_leaves (m : HashedBlocks) (hw : m.Wf) (j : Index 3) :
    (∀ e ∈ m.forEachLeaf, e.1.height = 0) ∧
    (m.forEachLeaf.filter (fun e => decide (e.1.position = j))
        = if m.hash.hasValue j then [(⟨0, j⟩, m.getCellValue j)] else []) ∧
    (m.hash.hasValue j = false → m.getCellValue j = m.hash.defaultValue) := by
  refine ⟨?_, ?_, ?_⟩
  · intro e he
    simp only [HashedBlocks.forEachLeaf, List.mem_map] at he
    obtain ⟨x, _, rfl⟩ := he; rfl
  · simp only [HashedBlocks.forEachLeaf, List.filter_map]
    have := C23_dense_block_hash_leaves (by decide) m.hash hw j
    rw [show ((fun e : NdtreeIndex 3 × ℚ => decide (e.1.position = j)) ∘
      fun e : Index 3 × ℚ => ((⟨0, e.1⟩ : NdtreeIndex 3), e.2)) = fun e => decide (e.1 = j) from rfl, this]
    split <;> rfl
  · intro h
    simp only [HashedBlocks.getCellValue, DenseBlockHash.getValueOrDefault_eq]
    simp only [DenseBlockHash.hasValue, Option.isSome_eq_false_iff, Option.isNone_iff_eq_none] at h
    rw [h]; rfl

example : -- a reachable map with two blocks
    let m := (HashedBlocks.create ⟨1, -2, 2⟩ 0).setCellValue ![-1, 2, 3] 1 |>.setCellValue ![16, 2, 3] 1
    m.Wf ∧ m.hash.hasValue ![-1, 2, 3] = true ∧ m.hash.hasValue ![31, 0, 0] = true ∧
      m.hash.hasValue ![32, 0, 0] = false := by
  refine ⟨C22_hashed_blocks_reachable ⟨1, -2, 2⟩ 0 [.set ![-1, 2, 3] 1, .set ![16, 2, 3] 1], ?_, ?_, ?_⟩ <;> decide +kernel

end Wavemap
