import Verif.Lemmas.IoHashed
import Verif.Props.HashedWavelet
import Verif.Props.ChunkedWavelet
import Verif.Props.HashedBlocks
import Verif.Props.WaveletOctree
/-!
# C35–C38, C60: maps in streams and files

The specification is what a user sees: the configuration of the loaded map, the value of every cell and node, and the
returned flags. `IsFloat32 q` says that `q` is the value of a finite single-precision float; in the program all numbers
of a map are.
-/
namespace Wavemap
open Haar Streamable NTree

/-! ## Specification -/

/-- Block coordinates and the number of blocks fit the fields of a file. -/
def FitsFile {β : Type} (l : SpatialHash 3 β) : Prop := (∀ e ∈ l, Int32Index e.1) ∧ l.length < 2 ^ 64

/-- Only numbers a float can hold. -/
structure HashedBlocks.FloatValued (m : HashedBlocks) : Prop where
  width : IsFloat32 m.config.minCellWidth
  lo : IsFloat32 m.config.minLogOdds
  hi : IsFloat32 m.config.maxLogOdds
  cells : ∀ e ∈ m.hash.blockMap, ∀ i < DenseGrid.cellsPerBlock 3 4, IsFloat32 (e.2 i)

/-- Only numbers a float can hold. -/
structure WaveletOctree.FloatValued (m : WaveletOctree) : Prop where
  width : IsFloat32 m.config.minCellWidth
  lo : IsFloat32 m.config.minLogOdds
  hi : IsFloat32 m.config.maxLogOdds
  scale : IsFloat32 m.rootScale
  details : ∀ p i, IsFloat32 (WTree.details (m.root.descend p) i)

/-- Only numbers a float can hold. -/
structure HashedWaveletOctree.FloatValued (m : HashedWaveletOctree) : Prop where
  width : IsFloat32 m.config.minCellWidth
  lo : IsFloat32 m.config.minLogOdds
  hi : IsFloat32 m.config.maxLogOdds
  scale : ∀ e ∈ m.blocks, IsFloat32 e.2.rootScale
  details : ∀ e ∈ m.blocks, ∀ p i, IsFloat32 (WTree.details (e.2.root.descend p) i)

/-- Only numbers a float can hold. -/
structure HashedChunkedWaveletOctree.FloatValued (m : HashedChunkedWaveletOctree) : Prop where
  width : IsFloat32 m.config.minCellWidth
  lo : IsFloat32 m.config.minLogOdds
  hi : IsFloat32 m.config.maxLogOdds
  scale : ∀ e ∈ m.blocks, IsFloat32 e.2.rootScale
  details : ∀ e ∈ m.blocks, ∀ p i, IsFloat32 (WChunks.details e.2.chunks (ChunkNode.ofPath 3 chunkHeight p) i)

/-- A map object a program can hold: valid configuration, an octree with a root. Weaker than what any sequence of operations
guarantees, so that it also covers maps made by integrators or loaders. -/
structure WaveletOctree.WellFormed (m : WaveletOctree) : Prop where
  valid : m.config.isValid = true
  height : m.config.treeHeight ≤ 20
  root : m.root ≠ .nil

/-- A map object a program can hold: valid configuration, distinct block indices, blocks of the right height with a root. -/
structure HashedWaveletOctree.WellFormed (m : HashedWaveletOctree) : Prop where
  valid : m.config.isValid = true
  height : m.config.treeHeight ≤ 20
  nodup : m.blocks.keys.Nodup
  blocks : ∀ e ∈ m.blocks, e.2.treeHeight = m.config.treeHeight ∧ e.2.root ≠ .nil

/-- A map object a program can hold. -/
structure HashedBlocks.WellFormed (m : HashedBlocks) : Prop where
  valid : m.config.isValid = true
  nodup : m.hash.blockMap.keys.Nodup

/-- A value within the writer's noise threshold of a bound, or beyond it. -/
def Saturated (lo hi v : ℚ) : Prop := v < lo + 1 / 1000 ∨ hi - 1 / 1000 < v

instance (lo hi v : ℚ) : Decidable (Saturated lo hi v) := by unfold Saturated; infer_instance

/-! ## Values below a node -/

theorem emod_ediv_pow (x p q : Int) (hp : 0 < p) (hq : 0 < q) : x % (p * q) / p = x / p % q := by
  have h1 := Int.emod_nonneg x (show p * q ≠ 0 by positivity)
  have h2 := Int.emod_lt_of_pos x (show 0 < p * q by positivity)
  have h3 : x / p = q * (x / (p * q)) + x % (p * q) / p := by
    conv_lhs => rw [← Int.emod_add_mul_ediv x (p * q)]
    rw [Int.mul_assoc, Int.add_mul_ediv_left _ _ (by omega : p ≠ 0)]
    ring
  have h4 : 0 ≤ x % (p * q) / p := Int.ediv_nonneg h1 (by omega)
  have h5 : x % (p * q) / p < q := Int.ediv_lt_of_lt_mul hp (by rw [Int.mul_comm q p]; exact h2)
  rw [h3, Int.mul_add_emod_self_left, Int.emod_eq_of_lt h4 h5]

namespace HashedWaveletOctree

theorem cell_value {m : HashedWaveletOctree} (hH : m.config.treeHeight ≤ 20)
    (hb : ∀ k b, m.blocks.getBlock k = some b → b.treeHeight = m.config.treeHeight) (j : Index 3) :
    m.getCellValue j = match m.blocks.getBlock (indexToBlockIndex m.config.treeHeight j) with
      | none => 0
      | some b => b.root.getValue b.rootScale (cellPath m.config.treeHeight j) := by
  unfold getCellValue
  cases e : m.blocks.getBlock (indexToBlockIndex m.config.treeHeight j) with
  | none => rfl
  | some b =>
    dsimp only
    rw [nodeToCell_zero m hH, ← hb _ _ e]
    exact b.getCellValue_eq (by rw [hb _ _ e]; exact hH) j

theorem node_value {m : HashedWaveletOctree} (hH : m.config.treeHeight ≤ 20)
    (hb : ∀ k b, m.blocks.getBlock k = some b → b.treeHeight = m.config.treeHeight) (j : Index 3) (h : Nat) (hh : h ≤ m.config.treeHeight) :
    m.getNodeValue (indexAndHeightToNodeIndex j h) = match m.blocks.getBlock (indexToBlockIndex m.config.treeHeight j) with
      | none => 0
      | some b => b.root.getValue b.rootScale ((cellPath m.config.treeHeight j).take (m.config.treeHeight - h)) := by
  obtain ⟨a, ha⟩ : ∃ a, a + h = m.config.treeHeight := ⟨m.config.treeHeight - h, by omega⟩
  have hpow : (2 : Int) ^ m.config.treeHeight = 2 ^ h * 2 ^ a := by rw [← ha, Int.pow_add, Int.mul_comm]
  have hblk : m.nodeToBlockIndex (indexAndHeightToNodeIndex j h) = indexToBlockIndex m.config.treeHeight j := by
    funext k
    simp only [nodeToBlockIndex, indexToBlockIndex, nodeIndexToMinCornerIndex, indexAndHeightToNodeIndex, divExp2Floor_eq,
      multExp2_eq, Int.toNat_natCast, hpow]
    have hp := two_pow_pos' h
    rw [← Int.ediv_ediv_of_nonneg (by omega), ← Int.ediv_ediv_of_nonneg (by omega), Int.mul_ediv_cancel _ (by omega)]
  have hcell : m.nodeToCellIndex (indexAndHeightToNodeIndex j h) = indexAndHeightToNodeIndex (fun k => j k % 2 ^ m.config.treeHeight) h := by
    unfold nodeToCellIndex indexAndHeightToNodeIndex
    congr 1
    funext k
    simp only [divExp2Floor_eq]
    rw [divExp2FloorRemainder_eq _ _ (by omega), hpow, emod_ediv_pow _ _ _ (two_pow_pos' h) (two_pow_pos' a)]
    congr 2
    omega
  unfold getNodeValue
  rw [hblk]
  cases e : m.blocks.getBlock (indexToBlockIndex m.config.treeHeight j) with
  | none => rfl
  | some b =>
    dsimp only
    unfold WaveletBlock.getCellValue
    rw [hcell, hb _ _ e]
    congr 1
    have hr := WaveletBlock.mod_range m.config.treeHeight j
    have h1 := nodePath_ancestor hH hr h hh
    have h2 := nodePath_cell hH hr
    have h3 := nodePath_length (ancestor_inTree hr h hh)
    rw [h2, cellPath_mod] at h1
    rw [h1]
    rw [List.take_left']
    rw [h3]; rfl

end HashedWaveletOctree

/-! ## C35 -/

/-- C35: a wavelet octree that is written to a stream and read back has the same configuration and the same value in every
node and cell. Reading stops exactly at the end of the map, so that several maps can follow each other in a stream. -/
theorem C35_roundtrip (m : WaveletOctree) (hw : m.WellFormed) (hf : m.FloatValued) :
    ∃ l, m.bytes = some l ∧ ∀ rest, ∃ m', WaveletOctree.ofStream ⟨l ++ rest, true⟩ = some (.ok m' ⟨rest, true⟩) ∧
      m'.config = m.config ∧ (∀ n, m'.getNodeValue n = m.getNodeValue n) ∧ ∀ i, m'.getCellValue i = m.getCellValue i := by
  refine ⟨_, WaveletOctree.bytes_eq m, fun rest => ?_⟩
  obtain ⟨⟨w, lo, hi, H⟩, s, t⟩ := m
  have hH : H ≤ 20 := hw.height
  refine ⟨⟨⟨w, lo, hi, H⟩, s, t.norm⟩, ?_, rfl, fun n => WTree.norm_getValue _ _ _, fun i => WTree.norm_getValue _ _ _⟩
  unfold WaveletOctree.ofStream
  rw [if_pos rfl]
  simp only [List.append_assoc]
  rw [(readFormat_reads (i := kWaveletOctree) (by decide)).of]
  dsimp only
  rw [if_pos rfl, (waveletOctreeHeader_reads (h := ⟨w, lo, hi, (H : Int), s⟩) hf.width hf.lo hf.hi
    (by dsimp only; omega) hf.scale).of]
  dsimp only
  have hv : WaveletOctreeConfig.isValid ⟨w, lo, hi, H⟩ = true := hw.valid
  rw [Int.toNat_natCast, hv, if_pos (by rw [Bool.true_and, decide_eq_true_eq]; show H ≤ 21; omega)]
  rw [show (WaveletOctree.create ⟨w, lo, hi, H⟩).root = .leaf zeroDetails from rfl,
    readNodes_roundtrip t hw.root (fun p i => hf.details p i)]
  rfl

/-! ## C36 -/

theorem HashedWaveletOctree.roundtrip (m : HashedWaveletOctree) (hw : m.WellFormed) (hf : m.FloatValued) (hk : FitsFile m.blocks) (now : ℚ) :
    ∃ l, m.bytes = some l ∧ ∀ rest, ∃ m', HashedWaveletOctree.ofStream now ⟨l ++ rest, true⟩ = some (.ok m' ⟨rest, true⟩) ∧
      m'.config = { m.config with onlyPruneBlocksIfUnusedFor := 5 } ∧ m'.blocks.keys.Nodup ∧
      (∀ k, m'.blocks.getBlock k = (m.blocks.getBlock k).map (HashedWaveletOctree.reloaded m.config now)) := by
  refine ⟨_, bytes_eq m fun e he => (hw.blocks e he).2, fun rest => ?_⟩
  obtain ⟨⟨w, lo, hi, H, T⟩, bs⟩ := m
  have hH : H ≤ 20 := hw.height
  have hv : HashedWaveletOctreeConfig.isValid ⟨w, lo, hi, H, defaultOnlyPruneBlocksIfUnusedFor⟩ = true := hw.valid
  obtain ⟨m', h1, h2, h3, h4, h5⟩ := readBlocks_roundtrip now ⟨w, lo, hi, H, T⟩ (by show H ≤ 21; omega) bs
    (create ⟨w, lo, hi, H, defaultOnlyPruneBlocksIfUnusedFor⟩) rest rfl rfl rfl hw.nodup
    (fun e he => ⟨hk.1 e he, hf.scale e he, (hw.blocks e he).2, fun p i => hf.details e he p i⟩)
    (fun k _ => by simp [create, SpatialHash.keys]) (by simp [create, SpatialHash.keys])
  refine ⟨m', ?_, h2, h3, fun k => ?_⟩
  · unfold ofStream hashedWaveletHeader
    rw [if_pos rfl]
    simp only [List.append_assoc]
    rw [(readFormat_reads (i := kHashedWaveletOctree) (by decide)).of]
    dsimp only
    rw [if_pos rfl, (hashedWaveletHeader_reads (h := ⟨w, lo, hi, (H : Int), bs.length⟩) hf.width hf.lo hf.hi
      (by dsimp only; omega) hk.2).of]
    dsimp only
    rw [Int.toNat_natCast, if_pos hv, h1]
    rfl
  · dsimp only
    cases e : bs.getBlock k with
    | none => rw [h4 k (SpatialHash.getBlock_eq_none.1 e)]; rfl
    | some b => exact h5 (k, b) (SpatialHash.mem_of_getBlock e)

/-- The value `v` of cell `j` after reloading, in terms of the cell and node values when the map was saved: the mean of the
coarsest node that contains the cell, is smaller than a block and has a saturated mean; the old value if there is no such
node. -/
def ReloadedValue (H : Nat) (lo hi : ℚ) (cell : Index 3 → ℚ) (node : NdtreeIndex 3 → ℚ) (j : Index 3) (v : ℚ) : Prop :=
  (∃ n : NdtreeIndex 3, 0 ≤ n.height ∧ n.height < H ∧ NodeRegion n j ∧ Saturated lo hi (node n) ∧
    (∀ n' : NdtreeIndex 3, n.height < n'.height → n'.height < H → NodeRegion n' j → ¬ Saturated lo hi (node n')) ∧ v = node n) ∨
  ((∀ n : NdtreeIndex 3, 0 ≤ n.height → n.height < H → NodeRegion n j → ¬ Saturated lo hi (node n)) ∧ v = cell j)

theorem HashedWaveletOctree.received_value_at (m m' : HashedWaveletOctree) (hH : m.config.treeHeight ≤ 20)
    (hb : ∀ k b, m.blocks.getBlock k = some b → b.treeHeight = m.config.treeHeight)
    (hc : m'.config.treeHeight = m.config.treeHeight)
    (hb' : ∀ k b, m'.blocks.getBlock k = some b → b.treeHeight = m'.config.treeHeight) (j : Index 3)
    (h : (m.blocks.getBlock (indexToBlockIndex m.config.treeHeight j) = none ∧
        m'.blocks.getBlock (indexToBlockIndex m.config.treeHeight j) = none) ∨
      ∃ b b', m.blocks.getBlock (indexToBlockIndex m.config.treeHeight j) = some b ∧
        m'.blocks.getBlock (indexToBlockIndex m.config.treeHeight j) = some b' ∧ Received m.config b b') :
    ReloadedValue m.config.treeHeight m.config.minLogOdds m.config.maxLogOdds m.getCellValue m.getNodeValue j (m'.getCellValue j) := by
  have hcell' : m'.getCellValue j = match m.blocks.getBlock (indexToBlockIndex m.config.treeHeight j) with
      | none => 0
      | some b => (WTree.dropSat m.config.minLogOdds m.config.maxLogOdds b.root b.rootScale).getValue b.rootScale
          (cellPath m.config.treeHeight j) := by
    rw [cell_value (by rw [hc]; exact hH) hb', hc]
    rcases h with ⟨h1, h2⟩ | ⟨b0, b', h1, h2, h3⟩
    · rw [h1, h2]
    · rw [h1, h2]
      dsimp only
      rw [h3.root, h3.scale]
      exact WTree.norm_getValue _ _ _
  -- the nodes that contain the cell are its ancestors
  have hanc : ∀ n : NdtreeIndex 3, 0 ≤ n.height → NodeRegion n j → ∃ q : Nat, n.height = q ∧ n = indexAndHeightToNodeIndex j q := by
    intro n h0 hr
    rw [C03_region_iff_ancestor _ h0] at hr
    exact ⟨n.height.toNat, by omega, hr.symm⟩
  have hreg : ∀ q : Nat, NodeRegion (indexAndHeightToNodeIndex j q) j := by
    intro q
    rw [C03_region_iff_ancestor _ (by show (0 : Int) ≤ q; omega)]; rfl
  have hlen := cellPath_length m.config.treeHeight j
  rw [hcell']
  cases e : m.blocks.getBlock (indexToBlockIndex m.config.treeHeight j) with
  | none =>
    have hn : ∀ q : Nat, q ≤ m.config.treeHeight → m.getNodeValue (indexAndHeightToNodeIndex j q) = 0 := by
      intro q hq; rw [node_value hH hb j q hq, e]
    dsimp only
    by_cases hs : 0 < m.config.treeHeight ∧ Saturated m.config.minLogOdds m.config.maxLogOdds 0
    · left
      refine ⟨indexAndHeightToNodeIndex j (m.config.treeHeight - 1), ?_, ?_, hreg _, ?_, ?_, ?_⟩
      · show (0 : Int) ≤ ((_ : Nat) : Int); omega
      · show (((_ : Nat) : Int)) < _; omega
      · rw [hn _ (by omega)]; exact hs.2
      · intro n' h1 h2 _
        change ((m.config.treeHeight - 1 : Nat) : Int) < n'.height at h1
        omega
      · rw [hn _ (by omega)]
    · right
      refine ⟨fun n h0 h1 hr => ?_, ?_⟩
      · obtain ⟨q, hq, rfl⟩ := hanc n h0 hr
        rw [hn q (by omega)]
        exact fun h => hs ⟨by omega, h⟩
      · rw [cell_value hH hb, e]
  | some b =>
    dsimp only
    have hn : ∀ q : Nat, q ≤ m.config.treeHeight → m.getNodeValue (indexAndHeightToNodeIndex j q)
        = b.root.getValue b.rootScale ((cellPath m.config.treeHeight j).take (m.config.treeHeight - q)) := by
      intro q hq; rw [node_value hH hb j q hq, e]
    rcases dropSat_getValue m.config.minLogOdds m.config.maxLogOdds (cellPath m.config.treeHeight j) b.root b.rootScale with
      ⟨k, h1, h2, h3, h4, h5⟩ | ⟨h1, h2⟩
    · left
      rw [hlen] at h2
      refine ⟨indexAndHeightToNodeIndex j (m.config.treeHeight - k), ?_, ?_, hreg _, ?_, ?_, ?_⟩
      · show (0 : Int) ≤ ((_ : Nat) : Int); omega
      · show (((_ : Nat) : Int)) < _; omega
      · rw [hn _ (by omega), show m.config.treeHeight - (m.config.treeHeight - k) = k by omega]; exact h3
      · intro n' h6 h7 hr
        change ((m.config.treeHeight - k : Nat) : Int) < n'.height at h6
        obtain ⟨q, hq, rfl⟩ := hanc n' (by omega) hr
        rw [hn q (by omega)]
        exact h4 _ (by omega) (by omega)
      · rw [hn _ (by omega), show m.config.treeHeight - (m.config.treeHeight - k) = k by omega]; exact h5
    · right
      refine ⟨fun n h0 h3 hr => ?_, ?_⟩
      · obtain ⟨q, hq, rfl⟩ := hanc n h0 hr
        rw [hn q (by omega)]
        exact h1 _ (by omega) (by omega)
      · rw [h2, cell_value hH hb, e]

theorem HashedWaveletOctree.received_values (m m' : HashedWaveletOctree) (hH : m.config.treeHeight ≤ 20)
    (hb : ∀ k b, m.blocks.getBlock k = some b → b.treeHeight = m.config.treeHeight)
    (hc : m'.config.treeHeight = m.config.treeHeight)
    (h : ∀ k, (m.blocks.getBlock k = none ∧ m'.blocks.getBlock k = none) ∨
      ∃ b b', m.blocks.getBlock k = some b ∧ m'.blocks.getBlock k = some b' ∧ Received m.config b b') (j : Index 3) :
    ReloadedValue m.config.treeHeight m.config.minLogOdds m.config.maxLogOdds m.getCellValue m.getNodeValue j (m'.getCellValue j) := by
  refine received_value_at m m' hH hb hc (fun k b hk => ?_) j (h _)
  rcases h k with ⟨_, h2⟩ | ⟨b0, b', _, h2, h3⟩
  · rw [h2] at hk; cases hk
  · rw [h2] at hk; cases hk
    rw [hc]; exact h3.height

theorem HashedWaveletOctree.reload_values (m m' : HashedWaveletOctree) (hH : m.config.treeHeight ≤ 20)
    (hb : ∀ k b, m.blocks.getBlock k = some b → b.treeHeight = m.config.treeHeight) (now : ℚ)
    (hc : m'.config.treeHeight = m.config.treeHeight)
    (h : ∀ k, m'.blocks.getBlock k = (m.blocks.getBlock k).map (HashedWaveletOctree.reloaded m.config now)) (j : Index 3) :
    ReloadedValue m.config.treeHeight m.config.minLogOdds m.config.maxLogOdds m.getCellValue m.getNodeValue j (m'.getCellValue j) := by
  refine received_values m m' hH hb hc (fun k => ?_) j
  cases e : m.blocks.getBlock k with
  | none => left; exact ⟨rfl, by rw [h, e]; rfl⟩
  | some b => right; exact ⟨b, reloaded m.config now b, rfl, by rw [h, e]; rfl, ⟨rfl, rfl, rfl⟩⟩

/-- C36, hashed wavelet octree. The loaded map has the same blocks; its configuration is the same except for the pruning
delay, which is not stored and becomes 5 seconds. The value of every cell is exactly `ReloadedValue`. What is missing from the
property: the pruning delay (`C36_config_fails`), and the cells that lie in a larger node with a saturated mean
(`C36_saturated_parent_fails`). -/
theorem C36_hashed_roundtrip_partial (m : HashedWaveletOctree) (hw : m.WellFormed) (hf : m.FloatValued) (hk : FitsFile m.blocks) (now : ℚ) :
    ∃ l, m.bytes = some l ∧ ∀ rest, ∃ m', HashedWaveletOctree.ofStream now ⟨l ++ rest, true⟩ = some (.ok m' ⟨rest, true⟩) ∧
      m'.config = { m.config with onlyPruneBlocksIfUnusedFor := 5 } ∧ (∀ k, k ∈ m'.blocks.keys ↔ k ∈ m.blocks.keys) ∧
      ∀ j, ReloadedValue m.config.treeHeight m.config.minLogOdds m.config.maxLogOdds m.getCellValue m.getNodeValue j (m'.getCellValue j) := by
  obtain ⟨l, h1, h2⟩ := m.roundtrip hw hf hk now
  refine ⟨l, h1, fun rest => ?_⟩
  obtain ⟨m', h3, h4, h5, h6⟩ := h2 rest
  refine ⟨m', h3, h4, fun k => ?_, HashedWaveletOctree.reload_values m m' hw.height
    (fun k b hb => (hw.blocks _ (SpatialHash.mem_of_getBlock hb)).1) now (by rw [h4]) h6⟩
  rw [← not_iff_not, ← SpatialHash.getBlock_eq_none, ← SpatialHash.getBlock_eq_none, h6, Option.map_eq_none_iff]

/-- C36: if no node of the saved map has a saturated mean, apart from single cells and whole blocks, every cell of the loaded
map has exactly the value it had. -/
theorem C36_unsaturated_exact (m : HashedWaveletOctree) (hw : m.WellFormed) (hf : m.FloatValued) (hk : FitsFile m.blocks) (now : ℚ)
    (hs : ∀ n : NdtreeIndex 3, 0 < n.height → n.height < m.config.treeHeight →
      ¬ Saturated m.config.minLogOdds m.config.maxLogOdds (m.getNodeValue n)) :
    ∃ l, m.bytes = some l ∧ ∃ m', HashedWaveletOctree.ofStream now ⟨l, true⟩ = some (.ok m' ⟨[], true⟩) ∧
      ∀ j, m'.getCellValue j = m.getCellValue j := by
  obtain ⟨l, h1, h2⟩ := C36_hashed_roundtrip_partial m hw hf hk now
  obtain ⟨m', h3, -, -, h6⟩ := h2 []
  rw [List.append_nil] at h3
  refine ⟨l, h1, m', h3, fun j => ?_⟩
  rcases h6 j with ⟨n, a, b, hr, c, -, hv⟩ | ⟨-, h⟩
  · by_cases h0 : n.height = 0
    · rw [hv]
      rw [C03_region_iff_ancestor _ a, h0] at hr
      have hn := HashedWaveletOctree.node_value hw.height (fun k b hb => (hw.blocks _ (SpatialHash.mem_of_getBlock hb)).1) j 0 (by omega)
      have hcell := HashedWaveletOctree.cell_value hw.height (fun k b hb => (hw.blocks _ (SpatialHash.mem_of_getBlock hb)).1) j
      rw [← hr, hcell]
      refine hn.trans ?_
      rw [Nat.sub_zero, List.take_of_length_le (by rw [cellPath_length])]
    · exact absurd c (hs n (by omega) b)
  · exact h

/-! ### Chunked maps -/

namespace HashedChunkedWaveletOctree

theorem fill_allFloat (k len : Nat) (t : WTree) (h : t.AllFloat) : WTree.AllFloat (WChunks.fill k len t) := by
  intro p
  induction p generalizing k len t with
  | nil =>
    intro i
    cases k with
    | zero => exact isFloat32_zero
    | succ k =>
      show IsFloat32 (WTree.details (WChunks.fill (k + 1) len t) i)
      rw [WChunks.fill_details]; exact h.details i
  | cons c p ih =>
    intro i
    cases k with
    | zero => 
      show IsFloat32 (WTree.details (NTree.descend .nil (c :: p)) i)
      rw [nil_descend]; exact isFloat32_zero
    | succ k =>
      show IsFloat32 (WTree.details (NTree.descend (NTree.child (WChunks.fill (k + 1) len t) c) p) i)
      rw [WChunks.fill_child]
      split
      · exact ih _ _ _ (h.child c) i
      · rw [nil_descend]; exact isFloat32_zero

theorem sub_allFloat {s : WChunks} {p : List (Fin (2 ^ 3))} {t : WTree} (h : WChunks.Sub s p t)
    (hf : ∀ p i, IsFloat32 (WChunks.details s (ChunkNode.ofPath 3 chunkHeight p) i)) : t.AllFloat := by
  intro q
  induction q generalizing p t with
  | nil => intro i; have := hf p i; rw [show ChunkNode.ofPath 3 chunkHeight p = WChunks.at_ p from rfl, h.details] at this; exact this
  | cons c q ih => exact ih (h.child c)

/-- The plain map with the siblings a chunk holds anyway. -/
def siblings (m : HashedWaveletOctree) : HashedWaveletOctree :=
  { m with blocks := m.blocks.map fun e => (e.1, { e.2 with root := WChunks.fill (m.config.treeHeight + 1) 0 e.2.root }) }

theorem siblings_get (m : HashedWaveletOctree) (k : Index 3) : (siblings m).blocks.getBlock k =
    (m.blocks.getBlock k).map fun b => { b with root := WChunks.fill (m.config.treeHeight + 1) 0 b.root } :=
  SpatialHash.getBlock_mapBlocks m.blocks k fun _ b => { b with root := WChunks.fill (m.config.treeHeight + 1) 0 b.root }

theorem siblings_node {m : HashedWaveletOctree} (hm : m.Inv) (n : NdtreeIndex 3) : (siblings m).getNodeValue n = m.getNodeValue n := by
  unfold HashedWaveletOctree.getNodeValue
  have e1 : (siblings m).nodeToBlockIndex n = m.nodeToBlockIndex n := rfl
  have e2 : (siblings m).nodeToCellIndex n = m.nodeToCellIndex n := rfl
  rw [e1, e2, siblings_get]
  cases e : m.blocks.getBlock (m.nodeToBlockIndex n) with
  | none => rfl
  | some b => exact WChunks.fill_getValue _ _ _ (hm.ok _ _ e).depth.mono _ _

theorem siblings_cell {m : HashedWaveletOctree} (hm : m.Inv) (j : Index 3) : (siblings m).getCellValue j = m.getCellValue j := by
  unfold HashedWaveletOctree.getCellValue
  have e0 : (siblings m).config = m.config := rfl
  have e2 : (siblings m).nodeToCellIndex ⟨0, j⟩ = m.nodeToCellIndex ⟨0, j⟩ := rfl
  rw [e0, e2, siblings_get]
  cases e : m.blocks.getBlock (indexToBlockIndex m.config.treeHeight j) with
  | none => rfl
  | some b => exact WChunks.fill_getValue _ _ _ (hm.ok _ _ e).depth.mono _ _

theorem block_write {H : Nat} {lo hi : ℚ} (config : HashedWaveletOctreeConfig) {e : Index 3 × ChunkedWaveletBlock} {e' : Index 3 × WaveletBlock}
    (h : EntryRel e e') (hb : e'.2.Ok H lo hi) : blockBytes config e =
      some (HashedWaveletOctree.entryBytes config (e'.1, { e'.2 with root := WChunks.fill (H + 1) 0 e'.2.root })) := by
  have key := WChunks.writeChunkNodes_eq config.minLogOdds config.maxLogOdds e.2.chunks (maxNumNodes e.2)
    [(e.2.rootScale, [], e'.2.root, H)] (by
      intro x hx; rw [List.mem_singleton] at hx; subst hx; exact ⟨h.2.tree, hb.depth⟩)
  unfold blockBytes
  rw [ChunkedWaveletBlock.root_eq]
  rw [show [(e.2.rootScale, WChunks.at_ [])] = ([(e.2.rootScale, [], e'.2.root, H)] : List (ℚ × List (Fin (2 ^ 3)) × WTree × Nat)).map
    fun e => (e.1, WChunks.at_ e.2.1) from rfl, key, writeNodes_eq]
  · unfold HashedWaveletOctree.entryBytes
    rw [← h.2.scale, ← h.1]
    simp
  · intro x hx
    simp only [List.map_cons, List.map_nil, List.mem_singleton] at hx
    subst hx; exact WChunks.fill_ne_nil _ _ _
  · have h1 := WChunks.numNodes_depth (H + 1) (WChunks.fill (H + 1) 0 e'.2.root) (WChunks.fill_depth _ _ _)
    have h2 : maxNumNodes e.2 = (2 ^ 3) ^ (H + 1) := by unfold maxNumNodes; rw [h.2.height, hb.height]
    rw [h2]
    simp only [List.map_cons, List.map_nil, List.sum_cons, List.sum_nil, List.length_nil]
    omega

theorem bytes_rel {c : HashedChunkedWaveletOctree} {m : HashedWaveletOctree} (h : c.Rel m) (hm : m.Inv) :
    c.bytes = (siblings m).bytes := by
  have hok : ∀ e ∈ m.blocks, e.2.Ok m.config.treeHeight m.config.minLogOdds m.config.maxLogOdds :=
    fun e he => hm.ok e.1 e.2 (SpatialHash.getBlock_of_mem hm.nodup he)
  rw [HashedWaveletOctree.bytes_eq _ (by
    intro e he
    simp only [siblings, List.mem_map] at he
    obtain ⟨e', _, rfl⟩ := he
    exact WChunks.fill_ne_nil _ _ _)]
  have key : ∀ {l : SpatialHash 3 ChunkedWaveletBlock} {l' : SpatialHash 3 WaveletBlock}, List.Forall₂ EntryRel l l' →
      (∀ e ∈ l', e.2.Ok m.config.treeHeight m.config.minLogOdds m.config.maxLogOdds) →
      l.mapM (blockBytes c.config) = some (l'.map fun e => HashedWaveletOctree.entryBytes m.config
        (e.1, { e.2 with root := WChunks.fill (m.config.treeHeight + 1) 0 e.2.root })) ∧ l.length = l'.length := by
    intro l l' hl hl'
    induction hl with
    | nil => exact ⟨rfl, rfl⟩
    | @cons e e' l l' h1 _ ih =>
      obtain ⟨i1, i2⟩ := ih fun e he => hl' e (List.mem_cons_of_mem _ he)
      refine ⟨?_, by simp [i2]⟩
      rw [List.mapM_cons, i1, block_write _ h1 (hl' e' List.mem_cons_self), h.config]
      rfl
  obtain ⟨k1, k2⟩ := key h.blocks hok
  unfold bytes
  rw [k1, k2, h.config]
  simp only [siblings, Option.map_some, List.length_map, List.flatMap_def, List.map_map]
  rfl

end HashedChunkedWaveletOctree

/-- C36, chunked map: the same statement for every map reached by a history of operations. It is loaded as a hashed wavelet
octree. -/
theorem C36_chunked_roundtrip_partial (config : HashedWaveletOctreeConfig) (hc : config.isValidChunked = true) (ops : List HashedWaveletOp)
    (c : HashedChunkedWaveletOctree) (hr : runChunkedMap config ops = some c) (hf : c.FloatValued) (hk : FitsFile c.blocks) (now : ℚ) :
    ∃ l, c.bytes = some l ∧ ∀ rest, ∃ m', HashedWaveletOctree.ofStream now ⟨l ++ rest, true⟩ = some (.ok m' ⟨rest, true⟩) ∧
      m'.config = { c.config with onlyPruneBlocksIfUnusedFor := 5 } ∧ (∀ k, k ∈ m'.blocks.keys ↔ k ∈ c.blocks.keys) ∧
      ∀ j, ReloadedValue c.config.treeHeight c.config.minLogOdds c.config.maxLogOdds c.getCellValue c.getNodeValue j (m'.getCellValue j) := by
  obtain ⟨c1, h1, hrel, hinv⟩ := HashedChunkedWaveletOctree.run_rel hc ops
  rw [hr] at h1
  cases h1
  generalize hmm : runPlainMap config ops = m at hrel hinv
  have hcfg : m.config = config := by
    rw [← hmm]
    unfold runPlainMap
    clear hr hmm hrel hinv
    have : ∀ (ops : List HashedWaveletOp) (m : HashedWaveletOctree), (ops.foldl HashedWaveletOp.run m).config = m.config := by
      intro ops
      induction ops with
      | nil => intro m; rfl
      | cons o ops ih => intro m; rw [List.foldl_cons, ih]; exact HashedWaveletOctree.run_config m o
    rw [this]; rfl
  have hkeys := HashedChunkedWaveletOctree.blocks_keys hrel.blocks
  have hmem : ∀ e' ∈ m.blocks, ∃ e ∈ c.blocks, EntryRel e e' := by
    intro e' he'
    have := hrel.blocks
    clear hk hf hr hkeys hmm hinv
    generalize c.blocks = l at this ⊢
    generalize m.blocks = l' at this he'
    induction this with
    | nil => cases he'
    | cons hh _ ih =>
      rcases List.mem_cons.1 he' with rfl | h
      · exact ⟨_, List.mem_cons_self, hh⟩
      · obtain ⟨e, h1, h2⟩ := ih h
        exact ⟨e, List.mem_cons_of_mem _ h1, h2⟩
  have hlen : c.blocks.length = m.blocks.length := by
    have := congrArg List.length hkeys
    simpa [SpatialHash.keys] using this
  simp only [HashedWaveletOctreeConfig.isValidChunked, Bool.and_eq_true] at hc
  have hsk : (HashedChunkedWaveletOctree.siblings m).blocks.keys = m.blocks.keys := by
    simp only [HashedChunkedWaveletOctree.siblings, SpatialHash.keys, List.map_map]; rfl
  have hok : ∀ e ∈ m.blocks, e.2.Ok m.config.treeHeight m.config.minLogOdds m.config.maxLogOdds :=
    fun e he => hinv.ok e.1 e.2 (SpatialHash.getBlock_of_mem hinv.nodup he)
  have hw : (HashedChunkedWaveletOctree.siblings m).WellFormed := by
    refine ⟨by show m.config.isValid = true; rw [hcfg]; exact hc.1, hinv.le, by rw [hsk]; exact hinv.nodup, ?_⟩
    intro e he
    simp only [HashedChunkedWaveletOctree.siblings, List.mem_map] at he
    obtain ⟨e', he', rfl⟩ := he
    exact ⟨(hok e' he').height, WChunks.fill_ne_nil _ _ _⟩
  have hf' : (HashedChunkedWaveletOctree.siblings m).FloatValued := by
    refine ⟨?_, ?_, ?_, ?_, ?_⟩
    · show IsFloat32 m.config.minCellWidth; rw [← hrel.config]; exact hf.width
    · show IsFloat32 m.config.minLogOdds; rw [← hrel.config]; exact hf.lo
    · show IsFloat32 m.config.maxLogOdds; rw [← hrel.config]; exact hf.hi
    · intro e he
      simp only [HashedChunkedWaveletOctree.siblings, List.mem_map] at he
      obtain ⟨e', he', rfl⟩ := he
      obtain ⟨e, h1, h2⟩ := hmem e' he'
      dsimp only
      rw [← h2.2.scale]; exact hf.scale e h1
    · intro e he
      simp only [HashedChunkedWaveletOctree.siblings, List.mem_map] at he
      obtain ⟨e', he', rfl⟩ := he
      obtain ⟨e, h1, h2⟩ := hmem e' he'
      exact HashedChunkedWaveletOctree.fill_allFloat _ _ _ (HashedChunkedWaveletOctree.sub_allFloat h2.2.tree (hf.details e h1))
  have hk' : FitsFile (HashedChunkedWaveletOctree.siblings m).blocks := by
    refine ⟨fun e he => ?_, ?_⟩
    · simp only [HashedChunkedWaveletOctree.siblings, List.mem_map] at he
      obtain ⟨e', he', rfl⟩ := he
      obtain ⟨e, h1, h2⟩ := hmem e' he'
      dsimp only
      rw [← h2.1]; exact hk.1 e h1
    · simp only [HashedChunkedWaveletOctree.siblings, List.length_map]
      rw [← hlen]; exact hk.2
  obtain ⟨l, h1, h2⟩ := C36_hashed_roundtrip_partial _ hw hf' hk' now
  refine ⟨l, by rw [HashedChunkedWaveletOctree.bytes_rel hrel hinv]; exact h1, fun rest => ?_⟩
  obtain ⟨m', h3, h4, h5, h6⟩ := h2 rest
  refine ⟨m', h3, by rw [h4, hrel.config]; rfl, fun k => by rw [h5, hsk, hkeys], ?_⟩
  have e1 : (HashedChunkedWaveletOctree.siblings m).getCellValue = c.getCellValue :=
    funext fun j => by rw [HashedChunkedWaveletOctree.siblings_cell hinv, hrel.get]
  have e2 : (HashedChunkedWaveletOctree.siblings m).getNodeValue = c.getNodeValue :=
    funext fun n => by rw [HashedChunkedWaveletOctree.siblings_node hinv, hrel.getNode]
  rw [e1, e2] at h6
  rw [hrel.config]
  exact h6

/-! ## C37 -/

theorem HashedBlocks.roundtrip (m : HashedBlocks) (hw : m.WellFormed) (hf : m.FloatValued) (hk : FitsFile m.hash.blockMap) (rest : List Byte) :
    ∃ m', HashedBlocks.ofStream ⟨m.bytes ++ rest, true⟩ = .ok m' ⟨rest, true⟩ ∧ m'.config = m.config ∧
      m'.hash.defaultValue = 0 ∧ ∀ j, m'.getCellValue j = (m.hash.getValue j).getD 0 := by
  obtain ⟨⟨w, lo, hi⟩, dv, bs⟩ := m
  obtain ⟨m', h1, h2, h3, h4, h5, h6⟩ := readBlocks_roundtrip bs (create ⟨w, lo, hi⟩ 0) rest hw.nodup
    (fun e he => ⟨hk.1 e he, hf.cells e he⟩) (fun k _ => by simp [create, DenseBlockHash.create, SpatialHash.keys])
    (by simp [create, DenseBlockHash.create, SpatialHash.keys])
  refine ⟨m', ?_, h2, h3, fun j => ?_⟩
  · unfold ofStream bytes
    rw [if_pos rfl]
    simp only [List.append_assoc]
    rw [(readFormat_reads (i := kHashedBlocks) (by decide)).of]
    dsimp only
    rw [if_pos rfl, (hashedBlocksHeader_reads (h := ⟨w, lo, hi, bs.length⟩) hf.width hf.lo hf.hi hk.2).of]
    dsimp only
    have hv : MapBaseConfig.isValid ⟨w, lo, hi⟩ = true := hw.valid
    rw [if_pos hv, h1]
    rfl
  · unfold getCellValue
    rw [DenseBlockHash.getValueOrDefault_eq, h3]
    unfold DenseBlockHash.getValue
    dsimp only
    cases e : bs.getBlock (indexToBlockIndex 4 j) with
    | none => rw [h5 _ (SpatialHash.getBlock_eq_none.1 e)]; rfl
    | some b =>
      obtain ⟨g, hg, hgi⟩ := h6 _ (SpatialHash.mem_of_getBlock e)
      rw [hg]
      dsimp only [Option.map_some, Option.getD_some]
      exact hgi _ (C15_in_bounds (by decide) j)

/-- C37. The default value is not stored, so the full property (any default value) fails, see `C37_default_fails`. With default
value 0, the one every map factory uses, the loaded map has the same configuration, default and value in every cell. -/
theorem C37_roundtrip_partial (m : HashedBlocks) (hw : m.WellFormed) (hf : m.FloatValued) (hk : FitsFile m.hash.blockMap)
    (hd : m.hash.defaultValue = 0) (rest : List Byte) :
    ∃ m', HashedBlocks.ofStream ⟨m.bytes ++ rest, true⟩ = .ok m' ⟨rest, true⟩ ∧ m'.config = m.config ∧
      m'.hash.defaultValue = m.hash.defaultValue ∧ ∀ j, m'.getCellValue j = m.getCellValue j := by
  obtain ⟨m', h1, h2, h3, h4⟩ := m.roundtrip hw hf hk rest
  refine ⟨m', h1, h2, by rw [h3, hd], fun j => ?_⟩
  rw [h4, HashedBlocks.getCellValue, DenseBlockHash.getValueOrDefault_eq, hd]

/-- C37, any default value: configuration and all cells of allocated blocks survive; every other cell, which used to read the
default value, reads 0. -/
theorem C37_allocated_cells (m : HashedBlocks) (hw : m.WellFormed) (hf : m.FloatValued) (hk : FitsFile m.hash.blockMap) (rest : List Byte) :
    ∃ m', HashedBlocks.ofStream ⟨m.bytes ++ rest, true⟩ = .ok m' ⟨rest, true⟩ ∧ m'.config = m.config ∧
      ∀ j, m'.getCellValue j = if m.hash.hasValue j then m.getCellValue j else 0 := by
  obtain ⟨m', h1, h2, -, h4⟩ := m.roundtrip hw hf hk rest
  refine ⟨m', h1, h2, fun j => ?_⟩
  rw [h4, HashedBlocks.getCellValue, DenseBlockHash.getValueOrDefault_eq, DenseBlockHash.hasValue]
  cases m.hash.getValue j <;> rfl


/-! ## Any map -/

/-- The value of a cell. -/
def AnyMap.cell : AnyMap → Index 3 → ℚ
  | .hashedBlocks m => m.getCellValue
  | .waveletOctree m => m.getCellValue
  | .hashedWavelet m => m.getCellValue
  | .hashedChunked m => m.getCellValue
  | .volumetricOctree m => m.getCellValue

/-- Maps that can be saved: the supported types, in a state a program can reach, with numbers that fit the file. -/
def AnyMap.Savable : AnyMap → Prop
  | .hashedBlocks m => m.WellFormed ∧ m.FloatValued ∧ FitsFile m.hash.blockMap
  | .waveletOctree m => m.WellFormed ∧ m.FloatValued
  | .hashedWavelet m => m.WellFormed ∧ m.FloatValued ∧ FitsFile m.blocks
  | .hashedChunked c => (∃ config ops, config.isValidChunked = true ∧ runChunkedMap config ops = some c) ∧ c.FloatValued ∧ FitsFile c.blocks
  | .volumetricOctree _ => False

/-- What the round trip theorems C35, C36 and C37 say about a saved map and the loaded one. -/
def ReloadsAs : AnyMap → AnyMap → Prop
  | .hashedBlocks m, .hashedBlocks m' => m'.config = m.config ∧ ∀ j, m'.getCellValue j = if m.hash.hasValue j then m.getCellValue j else 0
  | .waveletOctree m, .waveletOctree m' => m'.config = m.config ∧ (∀ n, m'.getNodeValue n = m.getNodeValue n) ∧
      ∀ j, m'.getCellValue j = m.getCellValue j
  | .hashedWavelet m, .hashedWavelet m' => m'.config = { m.config with onlyPruneBlocksIfUnusedFor := 5 } ∧
      (∀ k, k ∈ m'.blocks.keys ↔ k ∈ m.blocks.keys) ∧
      ∀ j, ReloadedValue m.config.treeHeight m.config.minLogOdds m.config.maxLogOdds m.getCellValue m.getNodeValue j (m'.getCellValue j)
  | .hashedChunked m, .hashedWavelet m' => m'.config = { m.config with onlyPruneBlocksIfUnusedFor := 5 } ∧
      (∀ k, k ∈ m'.blocks.keys ↔ k ∈ m.blocks.keys) ∧
      ∀ j, ReloadedValue m.config.treeHeight m.config.minLogOdds m.config.maxLogOdds m.getCellValue m.getNodeValue j (m'.getCellValue j)
  | _, _ => False

/-- Number of bytes before the first block or node. -/
def AnyMap.headerLength : AnyMap → Nat
  | .hashedWavelet _ | .hashedChunked _ => 28
  | _ => 24

/-! ### Peeking at the format -/

theorem peek_format {i : Int} (h : -2147483648 ≤ i ∧ i ≤ 2147483647) (r : List Byte) :
    peekFormat ⟨formatBytes i ++ r, true⟩ = (i, ⟨formatBytes i ++ r, true⟩) := by
  unfold peekFormat
  rw [(readFormat_reads h).of]
  rfl

theorem peek_short {p : List Byte} (hp : p.length < 4) : (peekFormat ⟨p, true⟩).1 < 0 := by
  unfold peekFormat readFormat IStream.readInt32 IStream.read
  rw [if_pos rfl, if_neg (by rw [int32Bytes_length]; show ¬ 4 ≤ p.length; omega)]
  have e : int32Bytes (-1) = [255, 255, 255, 255] := by decide
  dsimp only
  rw [e]
  match p, hp with
  | [], _ => decide
  | [a], _ => revert a; decide +kernel
  | [a, b], _ =>
    have ha := a.2; have hb := b.2
    simp only [List.length_cons, List.length_nil, List.drop, List.cons_append, List.nil_append, ofInt32Bytes, ofLe]
    split <;> omega
  | [a, b, c], _ =>
    have ha := a.2; have hb := b.2; have hc := c.2
    simp only [List.length_cons, List.length_nil, List.drop, List.cons_append, List.nil_append, ofInt32Bytes, ofLe]
    split <;> omega

theorem streamToMap_short (now : ℚ) {p : List Byte} (hp : p.length < 4) (old : Option AnyMap) :
    streamToMap now ⟨p, true⟩ old = some (.returned false none) := by
  have h := peek_short hp
  unfold streamToMap
  rw [if_pos rfl]
  dsimp only
  rw [if_neg (by unfold kHashedBlocks; omega), if_neg (by unfold kWaveletOctree; omega), if_neg (by unfold kHashedWaveletOctree; omega)]

theorem streamToMap_hashedBlocks (now : ℚ) (r : List Byte) (old : Option AnyMap) :
    streamToMap now ⟨formatBytes kHashedBlocks ++ r, true⟩ old =
      some (.ofLoad old .hashedBlocks (HashedBlocks.ofStream ⟨formatBytes kHashedBlocks ++ r, true⟩)) := by
  unfold streamToMap
  rw [if_pos rfl, peek_format (by decide)]
  rfl

theorem streamToMap_waveletOctree (now : ℚ) (r : List Byte) (old : Option AnyMap) :
    streamToMap now ⟨formatBytes kWaveletOctree ++ r, true⟩ old =
      (WaveletOctree.ofStream ⟨formatBytes kWaveletOctree ++ r, true⟩).map (.ofLoad old .waveletOctree) := by
  unfold streamToMap
  rw [if_pos rfl, peek_format (by decide)]
  rfl

theorem streamToMap_hashedWavelet (now : ℚ) (r : List Byte) (old : Option AnyMap) :
    streamToMap now ⟨formatBytes kHashedWaveletOctree ++ r, true⟩ old =
      (HashedWaveletOctree.ofStream now ⟨formatBytes kHashedWaveletOctree ++ r, true⟩).map (.ofLoad old .hashedWavelet) := by
  unfold streamToMap
  rw [if_pos rfl, peek_format (by decide)]
  rfl

/-! ### Shape of the written bytes -/

theorem HashedWaveletOctree.bytes_prefix (m : HashedWaveletOctree) (l : List Byte) (h : m.bytes = some l) :
    ∃ r, l = formatBytes kHashedWaveletOctree ++ (HashedWaveletOctreeHeader.bytes
      ⟨m.config.minCellWidth, m.config.minLogOdds, m.config.maxLogOdds, m.config.treeHeight, m.blocks.length⟩ ++ r) := by
  unfold HashedWaveletOctree.bytes at h
  rw [Option.map_eq_some_iff] at h
  obtain ⟨x, _, rfl⟩ := h
  exact ⟨x.flatten, by simp [hashedWaveletHeader]⟩

theorem HashedChunkedWaveletOctree.bytes_prefix (m : HashedChunkedWaveletOctree) (l : List Byte) (h : m.bytes = some l) :
    ∃ r, l = formatBytes kHashedWaveletOctree ++ (HashedWaveletOctreeHeader.bytes
      ⟨m.config.minCellWidth, m.config.minLogOdds, m.config.maxLogOdds, m.config.treeHeight, m.blocks.length⟩ ++ r) := by
  unfold HashedChunkedWaveletOctree.bytes at h
  rw [Option.map_eq_some_iff] at h
  obtain ⟨x, _, rfl⟩ := h
  exact ⟨x.flatten, by simp [hashedWaveletHeader]⟩

theorem HashedBlocks.bytes_prefix (m : HashedBlocks) :
    ∃ r, m.bytes = formatBytes kHashedBlocks ++ (HashedBlocksHeader.bytes
      ⟨m.config.minCellWidth, m.config.minLogOdds, m.config.maxLogOdds, m.hash.blockMap.length⟩ ++ r) :=
  ⟨_, by unfold HashedBlocks.bytes; rw [List.append_assoc]⟩

theorem formatBytes_length (i : Int) : (formatBytes i).length = 4 := int32Bytes_length i

/-- Prefixes of `a ++ b` that contain `a`. -/
theorem prefix_append {a b p X : List Byte} (h : a ++ b = p ++ X) (hp : a.length ≤ p.length) : ∃ b', p = a ++ b' ∧ b = b' ++ X := by
  obtain ⟨c, hc⟩ | ⟨c, hc⟩ := List.append_eq_append_iff.1 h
  · exact ⟨c, hc.1, hc.2⟩
  · obtain ⟨h1, h2⟩ := hc
    have : c = [] := by
      have := congrArg List.length h1
      rw [List.length_append] at this
      exact List.length_eq_zero_iff.1 (by omega)
    subst this
    exact ⟨[], by simpa using h1.symm, by simpa using h2.symm⟩

/-! ### Truncation -/

theorem not_ok_of_ext {α : Type} {L : IStream → Option (LoadResult α)}
    (hext : ∀ s m s', L s = some (.ok m s') → ∀ X, L (s.app X) = some (.ok m (s'.app X))) {p X : List Byte} {m : α}
    (hfull : L ⟨p ++ X, true⟩ = some (.ok m ⟨[], true⟩)) (hX : X ≠ []) (m' s') : L ⟨p, true⟩ ≠ some (.ok m' s') := by
  intro h
  have := hext _ _ _ h X
  rw [show IStream.app ⟨p, true⟩ X = ⟨p ++ X, true⟩ from rfl, hfull] at this
  simp only [Option.some.injEq, LoadResult.ok.injEq, IStream.app, IStream.mk.injEq] at this
  have := this.2.1
  simp at this
  exact hX this.2

theorem HashedBlocks.ofStream_not_abort {c : MapBaseConfig} (hv : c.isValid = true) (h1 : IsFloat32 c.minCellWidth)
    (h2 : IsFloat32 c.minLogOdds) (h3 : IsFloat32 c.maxLogOdds) {n : Nat} (hn : n < 2 ^ 64) (r : List Byte) :
    HashedBlocks.ofStream ⟨formatBytes kHashedBlocks ++ (HashedBlocksHeader.bytes
      ⟨c.minCellWidth, c.minLogOdds, c.maxLogOdds, n⟩ ++ r), true⟩ ≠ .abort := by
  unfold ofStream
  rw [if_pos rfl, (readFormat_reads (i := kHashedBlocks) (by decide)).of]
  dsimp only
  rw [if_pos rfl, (hashedBlocksHeader_reads (h := ⟨c.minCellWidth, c.minLogOdds, c.maxLogOdds, n⟩) h1 h2 h3 hn).of]
  dsimp only
  rw [if_pos hv]
  split
  · intro h; cases h
  · split <;> intro h <;> cases h

theorem WaveletOctree.ofStream_not_abort {c : WaveletOctreeConfig} (hv : c.isValid = true) (hH : c.treeHeight ≤ 20) (h1 : IsFloat32 c.minCellWidth)
    (h2 : IsFloat32 c.minLogOdds) (h3 : IsFloat32 c.maxLogOdds) {q : ℚ} (hq : IsFloat32 q) (r : List Byte) :
    WaveletOctree.ofStream ⟨formatBytes kWaveletOctree ++ (WaveletOctreeHeader.bytes
      ⟨c.minCellWidth, c.minLogOdds, c.maxLogOdds, c.treeHeight, q⟩ ++ r), true⟩ ≠ some .abort := by
  unfold ofStream
  rw [if_pos rfl, (readFormat_reads (i := kWaveletOctree) (by decide)).of]
  dsimp only
  rw [if_pos rfl, (waveletOctreeHeader_reads (h := ⟨c.minCellWidth, c.minLogOdds, c.maxLogOdds, c.treeHeight, q⟩) h1 h2 h3
    (by dsimp only; omega) hq).of]
  dsimp only
  obtain ⟨w, lo, hi, H⟩ := c
  dsimp only at *
  rw [Int.toNat_natCast, hv, if_pos (by rw [Bool.true_and, decide_eq_true_eq]; show H ≤ 21; omega)]
  split
  · intro h; cases h
  · split <;> intro h <;> cases h

theorem HashedWaveletOctree.readBlocks_not_abort (now : ℚ) (n : Nat) : ∀ m s, m.config.treeHeight ≤ maxWaveletTreeHeight →
    readBlocks now n m s ≠ some .abort := by
  induction n with
  | zero => intro m s _ h; cases h
  | succ n ih =>
    intro m s hm
    rw [readBlocks]
    split
    · dsimp only
      split
      · intro h; cases h
      · split
        · intro h; cases h
        · exact ih _ _ hm
    · intro h; cases h

theorem HashedWaveletOctree.ofStream_not_abort (now : ℚ) {c : HashedWaveletOctreeConfig} (hv : c.isValid = true) (hH : c.treeHeight ≤ 20)
    (h1 : IsFloat32 c.minCellWidth) (h2 : IsFloat32 c.minLogOdds) (h3 : IsFloat32 c.maxLogOdds) {n : Nat} (hn : n < 2 ^ 64) (r : List Byte) :
    HashedWaveletOctree.ofStream now ⟨formatBytes kHashedWaveletOctree ++ (HashedWaveletOctreeHeader.bytes
      ⟨c.minCellWidth, c.minLogOdds, c.maxLogOdds, c.treeHeight, n⟩ ++ r), true⟩ ≠ some .abort := by
  unfold ofStream
  rw [if_pos rfl, (readFormat_reads (i := kHashedWaveletOctree) (by decide)).of]
  dsimp only
  rw [if_pos rfl, (hashedWaveletHeader_reads (h := ⟨c.minCellWidth, c.minLogOdds, c.maxLogOdds, c.treeHeight, n⟩) h1 h2 h3
    (by dsimp only; omega) hn).of]
  dsimp only
  obtain ⟨w, lo, hi, H, T⟩ := c
  dsimp only at *
  have hv' : HashedWaveletOctreeConfig.isValid ⟨w, lo, hi, H, defaultOnlyPruneBlocksIfUnusedFor⟩ = true := hv
  rw [Int.toNat_natCast, if_pos hv']
  split
  · intro h; cases h
  · next h => exact absurd h (readBlocks_not_abort now _ _ _ (by show H ≤ 21; omega))
  · intro h; cases h
  · split <;> intro h <;> cases h

theorem chunked_config {config : HashedWaveletOctreeConfig} (hc : config.isValidChunked = true) {ops : List HashedWaveletOp}
    {c : HashedChunkedWaveletOctree} (hr : runChunkedMap config ops = some c) : c.config.isValid = true ∧ c.config.treeHeight ≤ 20 := by
  obtain ⟨c1, h1, hrel, hinv⟩ := HashedChunkedWaveletOctree.run_rel hc ops
  rw [hr] at h1
  cases h1
  rw [hrel.config]
  refine ⟨?_, hinv.le⟩
  have : ∀ (ops : List HashedWaveletOp) (m : HashedWaveletOctree), (ops.foldl HashedWaveletOp.run m).config = m.config := by
    intro ops
    induction ops with
    | nil => intro m; rfl
    | cons o ops ih => intro m; rw [List.foldl_cons, ih]; exact HashedWaveletOctree.run_config m o
  unfold runPlainMap
  rw [this]
  simp only [HashedWaveletOctreeConfig.isValidChunked, Bool.and_eq_true] at hc
  exact hc.1

/-- Every supported map can be saved, and what is saved can be loaded. -/
theorem C38_written_map_loads (m : AnyMap) (hm : m.Savable) (now : ℚ) (old : Option AnyMap) :
    ∃ l, m.bytes = some (some l) ∧ ∀ rest, ∃ m', streamToMap now ⟨l ++ rest, true⟩ old = some (.returned true (some m')) ∧ ReloadsAs m m' := by
  cases m with
  | hashedBlocks m =>
    refine ⟨m.bytes, rfl, fun rest => ?_⟩
    obtain ⟨m', h1, h2, h3⟩ := C37_allocated_cells m hm.1 hm.2.1 hm.2.2 rest
    refine ⟨.hashedBlocks m', ?_, h2, h3⟩
    obtain ⟨r, hr⟩ := m.bytes_prefix
    rw [hr] at h1 ⊢
    rw [List.append_assoc] at h1 ⊢
    rw [streamToMap_hashedBlocks, h1]
    rfl
  | waveletOctree m =>
    obtain ⟨l, h1, h2⟩ := C35_roundtrip m hm.1 hm.2
    refine ⟨l, by show m.bytes.map some = _; rw [h1]; rfl, fun rest => ?_⟩
    obtain ⟨m', h3, h4, h5, h6⟩ := h2 rest
    refine ⟨.waveletOctree m', ?_, h4, h5, h6⟩
    rw [WaveletOctree.bytes_eq, Option.some.injEq] at h1
    rw [← h1, List.append_assoc] at h3 ⊢
    rw [streamToMap_waveletOctree, h3]
    rfl
  | hashedWavelet m =>
    obtain ⟨l, h1, h2⟩ := C36_hashed_roundtrip_partial m hm.1 hm.2.1 hm.2.2 now
    refine ⟨l, by show m.bytes.map some = _; rw [h1]; rfl, fun rest => ?_⟩
    obtain ⟨m', h3, h4, h5, h6⟩ := h2 rest
    refine ⟨.hashedWavelet m', ?_, h4, h5, h6⟩
    obtain ⟨r, hr⟩ := m.bytes_prefix l h1
    rw [hr, List.append_assoc] at h3 ⊢
    rw [streamToMap_hashedWavelet, h3]
    rfl
  | hashedChunked m =>
    obtain ⟨⟨config, ops, hc, hr⟩, hf, hk⟩ := hm
    obtain ⟨l, h1, h2⟩ := C36_chunked_roundtrip_partial config hc ops m hr hf hk now
    refine ⟨l, by show m.bytes.map some = _; rw [h1]; rfl, fun rest => ?_⟩
    obtain ⟨m', h3, h4, h5, h6⟩ := h2 rest
    refine ⟨.hashedWavelet m', ?_, h4, h5, h6⟩
    obtain ⟨r, hr⟩ := m.bytes_prefix l h1
    rw [hr, List.append_assoc] at h3 ⊢
    rw [streamToMap_hashedWavelet, h3]
    rfl
  | volumetricOctree m => exact hm.elim

/-- C38: reading never loops forever, whatever the bytes are. -/
theorem C38_reading_terminates (now : ℚ) (s : IStream) (old : Option AnyMap) : ∃ r, streamToMap now s old = some r := by
  unfold streamToMap
  split
  · dsimp only
    split
    · exact ⟨_, rfl⟩
    · split
      · obtain ⟨r, hr⟩ := WaveletOctree.ofStream_total (peekFormat s).2
        rw [hr]; exact ⟨_, rfl⟩
      · split
        · obtain ⟨r, hr⟩ := HashedWaveletOctree.ofStream_total now (peekFormat s).2
          rw [hr]; exact ⟨_, rfl⟩
        · exact ⟨_, rfl⟩
  · exact ⟨_, rfl⟩


/-- What reading a strict prefix does, for a map type whose loader is `L`. -/
theorem ofLoad_truncated {α : Type} {r : LoadResult α} (old : Option AnyMap) (w : α → AnyMap) (hr : ∀ m s, r ≠ .ok m s) :
    StreamToMap.ofLoad old w r = .abort ∨ StreamToMap.ofLoad old w r = .returned false old := by
  cases r with
  | abort => exact Or.inl rfl
  | failed => exact Or.inr rfl
  | ok m s => exact absurd rfl (hr m s)

theorem ofLoad_failed {α : Type} {r : LoadResult α} (old : Option AnyMap) (w : α → AnyMap) (hr : ∀ m s, r ≠ .ok m s) (ha : r ≠ .abort) :
    StreamToMap.ofLoad old w r = .returned false old := by
  cases r with
  | abort => exact absurd rfl ha
  | failed => rfl
  | ok m s => exact absurd rfl (hr m s)

theorem truncated_cases (m : AnyMap) (hm : m.Savable) {p X : List Byte} (hb : m.bytes = some (some (p ++ X))) (hX : X ≠ [])
    (h4 : 4 ≤ p.length) (now : ℚ) (old : Option AnyMap) :
    (streamToMap now ⟨p, true⟩ old = some .abort ∨ streamToMap now ⟨p, true⟩ old = some (.returned false old)) ∧
    (m.headerLength ≤ p.length → streamToMap now ⟨p, true⟩ old = some (.returned false old)) := by
  have hashed : ∀ (m1 : HashedWaveletOctree) (c : HashedWaveletOctreeConfig) (n : Nat) (r : List Byte), c.isValid = true → c.treeHeight ≤ 20 →
      IsFloat32 c.minCellWidth → IsFloat32 c.minLogOdds → IsFloat32 c.maxLogOdds → n < 2 ^ 64 →
      p ++ X = formatBytes kHashedWaveletOctree ++ (HashedWaveletOctreeHeader.bytes
        ⟨c.minCellWidth, c.minLogOdds, c.maxLogOdds, c.treeHeight, n⟩ ++ r) →
      HashedWaveletOctree.ofStream now ⟨p ++ X, true⟩ = some (.ok m1 ⟨[], true⟩) →
      (streamToMap now ⟨p, true⟩ old = some .abort ∨ streamToMap now ⟨p, true⟩ old = some (.returned false old)) ∧
      (28 ≤ p.length → streamToMap now ⟨p, true⟩ old = some (.returned false old)) := by
    intro m1 c n r hv hH h1 h2 h3 hn hp hfull
    have hno := not_ok_of_ext (L := HashedWaveletOctree.ofStream now)
      (fun s m s' h X => (HashedWaveletOctree.ofStream_ext h).2.2 X) hfull hX
    obtain ⟨b, rfl, hb2⟩ := prefix_append hp.symm (by rw [formatBytes_length]; exact h4)
    obtain ⟨res, hres⟩ := HashedWaveletOctree.ofStream_total now ⟨formatBytes kHashedWaveletOctree ++ b, true⟩
    have hno' : ∀ m s, res ≠ .ok m s := by
      rintro m s rfl; exact hno m s hres
    rw [streamToMap_hashedWavelet, hres, Option.map_some]
    refine ⟨?_, fun hlen => ?_⟩
    · rcases ofLoad_truncated old .hashedWavelet hno' with h | h <;> rw [h]
      · left; rfl
      · right; rfl
    · rw [List.length_append, formatBytes_length] at hlen
      obtain ⟨b', rfl, -⟩ := prefix_append hb2 (by rw [hashedWaveletHeader_length]; omega)
      rw [ofLoad_failed old .hashedWavelet hno']
      rintro rfl
      exact HashedWaveletOctree.ofStream_not_abort now hv hH h1 h2 h3 hn _ hres
  obtain ⟨l, hl1, hl2⟩ := C38_written_map_loads m hm now old
  rw [hb] at hl1
  cases m with
  | hashedBlocks m =>
    obtain ⟨m1, hfull, -⟩ := C37_allocated_cells m hm.1 hm.2.1 hm.2.2 []
    have hb' : m.bytes = p ++ X := by simpa [AnyMap.bytes] using hb
    rw [List.append_nil, hb'] at hfull
    have hno := not_ok_of_ext (L := fun s => some (HashedBlocks.ofStream s))
      (fun s m s' h X => by
        rw [Option.some.injEq] at h
        rw [(HashedBlocks.ofStream_ext h).2.2 X]) (by rw [hfull]) hX
    obtain ⟨r, hr⟩ := m.bytes_prefix
    rw [hb'] at hr
    obtain ⟨b, rfl, hb2⟩ := prefix_append hr.symm (by rw [formatBytes_length]; exact h4)
    rw [streamToMap_hashedBlocks]
    have hno' : ∀ m s, HashedBlocks.ofStream ⟨formatBytes kHashedBlocks ++ b, true⟩ ≠ .ok m s := by
      intro m s h; exact hno m s (congrArg some h)
    refine ⟨?_, fun hlen => ?_⟩
    · rcases ofLoad_truncated old .hashedBlocks hno' with h | h <;> rw [h]
      · left; rfl
      · right; rfl
    · change 24 ≤ _ at hlen
      rw [List.length_append, formatBytes_length] at hlen
      obtain ⟨b', rfl, -⟩ := prefix_append hb2 (by rw [hashedBlocksHeader_length]; omega)
      rw [ofLoad_failed old .hashedBlocks hno']
      exact HashedBlocks.ofStream_not_abort hm.1.valid hm.2.1.width hm.2.1.lo hm.2.1.hi hm.2.2.2 _
  | waveletOctree m =>
    obtain ⟨l, h1, h2⟩ := C35_roundtrip m hm.1 hm.2
    obtain ⟨m1, hfull, -⟩ := h2 []
    have hb' : m.bytes = some (p ++ X) := by
      change m.bytes.map some = _ at hb
      rw [h1] at hb ⊢; simpa using hb
    rw [h1, Option.some.injEq] at hb'
    rw [List.append_nil, hb'] at hfull
    have hno := not_ok_of_ext (L := WaveletOctree.ofStream)
      (fun s m s' h X => (WaveletOctree.ofStream_ext h).2.2 X) hfull hX
    rw [WaveletOctree.bytes_eq, Option.some.injEq, hb'] at h1
    obtain ⟨b, rfl, hb2⟩ := prefix_append h1 (by rw [formatBytes_length]; exact h4)
    obtain ⟨res, hres⟩ := WaveletOctree.ofStream_total ⟨formatBytes kWaveletOctree ++ b, true⟩
    have hno' : ∀ m s, res ≠ .ok m s := by
      rintro m s rfl; exact hno m s hres
    rw [streamToMap_waveletOctree, hres, Option.map_some]
    refine ⟨?_, fun hlen => ?_⟩
    · rcases ofLoad_truncated old .waveletOctree hno' with h | h <;> rw [h]
      · left; rfl
      · right; rfl
    · change 24 ≤ _ at hlen
      rw [List.length_append, formatBytes_length] at hlen
      obtain ⟨b', rfl, -⟩ := prefix_append hb2 (by rw [waveletOctreeHeader_length]; omega)
      rw [ofLoad_failed old .waveletOctree hno']
      rintro rfl
      exact WaveletOctree.ofStream_not_abort hm.1.valid hm.1.height hm.2.width hm.2.lo hm.2.hi hm.2.scale _ hres
  | hashedWavelet m =>
    obtain ⟨l, h1, h2⟩ := C36_hashed_roundtrip_partial m hm.1 hm.2.1 hm.2.2 now
    obtain ⟨m1, hfull, -⟩ := h2 []
    have hb' : l = p ++ X := by
      change m.bytes.map some = _ at hb
      rw [h1] at hb; simpa using hb
    rw [List.append_nil, hb'] at hfull
    rw [hb'] at h1
    obtain ⟨r, hr⟩ := m.bytes_prefix _ h1
    exact hashed m1 m.config m.blocks.length r hm.1.valid hm.1.height hm.2.1.width hm.2.1.lo hm.2.1.hi hm.2.2.2 hr hfull
  | hashedChunked m =>
    obtain ⟨⟨config, ops, hc, hr⟩, hf, hk⟩ := hm
    obtain ⟨l, h1, h2⟩ := C36_chunked_roundtrip_partial config hc ops m hr hf hk now
    obtain ⟨m1, hfull, -⟩ := h2 []
    have hb' : l = p ++ X := by
      change m.bytes.map some = _ at hb
      rw [h1] at hb; simpa using hb
    rw [List.append_nil, hb'] at hfull
    rw [hb'] at h1
    obtain ⟨r, hr'⟩ := m.bytes_prefix _ h1
    have hv := chunked_config hc hr
    exact hashed m1 m.config m.blocks.length r hv.1 hv.2 hf.width hf.lo hf.hi hk.2 hr' hfull
  | volumetricOctree m => exact hm.elim

/-- C38, truncated streams. A strict prefix of a written map is never accepted: reading it returns false, or the process is
ended by a failed check. It returns false, with the caller's map pointer unchanged, whenever the prefix contains the complete
header. What is missing: prefixes that end within the header may end the process (`C38_truncated_config_fails`). -/
theorem C38_truncated_partial (m : AnyMap) (hm : m.Savable) (p X : List Byte) (hb : m.bytes = some (some (p ++ X))) (hX : X ≠ [])
    (now : ℚ) (old : Option AnyMap) :
    (streamToMap now ⟨p, true⟩ old = some .abort ∨ ∃ map, streamToMap now ⟨p, true⟩ old = some (.returned false map)) ∧
    (m.headerLength ≤ p.length → streamToMap now ⟨p, true⟩ old = some (.returned false old)) ∧
    (p.length < 4 → streamToMap now ⟨p, true⟩ old = some (.returned false none)) := by
  by_cases h4 : 4 ≤ p.length
  · obtain ⟨h1, h2⟩ := truncated_cases m hm hb hX h4 now old
    refine ⟨?_, h2, fun h => by omega⟩
    rcases h1 with h | h
    · exact Or.inl h
    · exact Or.inr ⟨old, h⟩
  · have h := streamToMap_short now (p := p) (by omega) old
    refine ⟨Or.inr ⟨none, h⟩, fun hh => ?_, fun _ => h⟩
    have : 24 ≤ m.headerLength := by cases m <;> simp [AnyMap.headerLength]
    omega

theorem readFloat_rest (s : IStream) (hs : s.bytes.length ≤ 4) : s.readFloat.2.bytes = [] ∨ s.good = false := by
  unfold IStream.readFloat IStream.read
  cases s.good with
  | false => right; rfl
  | true =>
    left
    rw [if_pos rfl, leBytes_length]
    split
    · simp; omega
    · rfl

theorem read_none (s : IStream) (init : List Byte) (hi : init ≠ []) (hs : s.bytes = [] ∨ s.good = false) :
    s.read init = (init, ⟨s.bytes, false⟩) := by
  obtain ⟨b, g⟩ := s
  unfold IStream.read
  cases g with
  | false => rfl
  | true =>
    rcases hs with h | h
    · dsimp only at h
      subst h
      rw [if_pos rfl, if_neg (by simpa using hi)]
      simp
    · cases h

theorem readFloat_none (s : IStream) (hs : s.bytes = [] ∨ s.good = false) : s.readFloat = (0, ⟨s.bytes, false⟩) := by
  unfold IStream.readFloat
  rw [read_none s _ (by decide) hs]
  simp [float32OfBits, ofLe, leBytes]

/-- The two bounds read from a header of which at most four bytes are there. -/
theorem short_bounds (q : List Byte) (hq : q.length ≤ 4) : ∃ s, IStream.readFloat (IStream.readFloat ⟨q, true⟩).2 = (0, s) ∧ (IStream.readFloat s).1 = 0 := by
  have h := readFloat_rest ⟨q, true⟩ hq
  have h' : (IStream.readFloat ⟨q, true⟩).2.bytes = [] ∨ (IStream.readFloat ⟨q, true⟩).2.good = false := by
    rcases h with h | h
    · exact Or.inl h
    · cases h
  refine ⟨_, readFloat_none _ h', ?_⟩
  rw [readFloat_none _ (Or.inr rfl)]

/-- C38 fails: for every map, each prefix of 4 to 8 bytes ends the process. (The format id is complete, so the reader goes on to
the header; the bounds it cannot read stay zero, and the constructor's check of the configuration fails.) -/
theorem C38_truncated_config_fails (m : AnyMap) (hm : m.Savable) (p X : List Byte) (hb : m.bytes = some (some (p ++ X)))
    (h4 : 4 ≤ p.length) (h8 : p.length ≤ 8) (now : ℚ) (old : Option AnyMap) :
    streamToMap now ⟨p, true⟩ old = some .abort := by
  have hashed : ∀ r, p ++ X = formatBytes kHashedWaveletOctree ++ r → streamToMap now ⟨p, true⟩ old = some .abort := by
    intro r hr
    obtain ⟨b, rfl, -⟩ := prefix_append hr.symm (by rw [formatBytes_length]; exact h4)
    rw [List.length_append, formatBytes_length] at h8
    obtain ⟨s, h1, h2⟩ := short_bounds b (by omega)
    rw [streamToMap_hashedWavelet]
    unfold HashedWaveletOctree.ofStream
    rw [if_pos rfl, (readFormat_reads (i := kHashedWaveletOctree) (by decide)).of]
    simp only [HashedWaveletOctreeHeader.read, h1, h2, HashedWaveletOctreeConfig.isValid, lt_irrefl, decide_false, Bool.and_false, Bool.false_and]
    rfl
  cases m with
  | hashedBlocks m =>
    obtain ⟨r, hr⟩ := m.bytes_prefix
    have hb' : m.bytes = p ++ X := by simpa [AnyMap.bytes] using hb
    rw [hb'] at hr
    obtain ⟨b, rfl, -⟩ := prefix_append hr.symm (by rw [formatBytes_length]; exact h4)
    rw [List.length_append, formatBytes_length] at h8
    obtain ⟨s, h1, h2⟩ := short_bounds b (by omega)
    rw [streamToMap_hashedBlocks]
    unfold HashedBlocks.ofStream
    rw [if_pos rfl, (readFormat_reads (i := kHashedBlocks) (by decide)).of]
    simp only [HashedBlocksHeader.read, h1, h2, MapBaseConfig.isValid, lt_irrefl, decide_false, Bool.and_false]
    rfl
  | waveletOctree m =>
    have h1 := WaveletOctree.bytes_eq m
    have hb' : m.bytes = some (p ++ X) := by
      change m.bytes.map some = _ at hb
      rw [h1] at hb ⊢; simpa using hb
    rw [h1, Option.some.injEq] at hb'
    obtain ⟨b, rfl, -⟩ := prefix_append hb' (by rw [formatBytes_length]; exact h4)
    rw [List.length_append, formatBytes_length] at h8
    obtain ⟨s, h1, h2⟩ := short_bounds b (by omega)
    rw [streamToMap_waveletOctree]
    unfold WaveletOctree.ofStream
    rw [if_pos rfl, (readFormat_reads (i := kWaveletOctree) (by decide)).of]
    simp only [WaveletOctreeHeader.read, h1, h2, WaveletOctreeConfig.isValid, lt_irrefl, decide_false, Bool.and_false, Bool.false_and]
    rfl
  | hashedWavelet m =>
    have hb' : m.bytes = some (p ++ X) := by
      change m.bytes.map some = _ at hb
      cases h : m.bytes with
      | none => rw [h] at hb; cases hb
      | some x => rw [h] at hb; simpa using hb
    obtain ⟨r, hr⟩ := m.bytes_prefix _ hb'
    exact hashed _ hr
  | hashedChunked m =>
    have hb' : m.bytes = some (p ++ X) := by
      change m.bytes.map some = _ at hb
      cases h : m.bytes with
      | none => rw [h] at hb; cases hb
      | some x => rw [h] at hb; simpa using hb
    obtain ⟨r, hr⟩ := m.bytes_prefix _ hb'
    exact hashed _ hr
  | volumetricOctree m => exact hm.elim

/-- C38, foreign streams: a stream that does not start with one of the three format ids is refused. The map pointer becomes
null. -/
theorem C38_unknown_format (id : Int) (hid : -2147483648 ≤ id ∧ id ≤ 2147483647) (h : id ≠ 0 ∧ id ≠ 1 ∧ id ≠ 2) (r : List Byte)
    (now : ℚ) (old : Option AnyMap) : streamToMap now ⟨formatBytes id ++ r, true⟩ old = some (.returned false none) := by
  unfold streamToMap
  rw [if_pos rfl, peek_format hid]
  dsimp only
  rw [if_neg (show ¬ id = kHashedBlocks from h.2.2), if_neg (show ¬ id = kWaveletOctree from h.1),
    if_neg (show ¬ id = kHashedWaveletOctree from h.2.1)]

/-- C38: a stream that is already bad is refused and the map pointer stays as it is. -/
theorem C38_bad_stream (l : List Byte) (now : ℚ) (old : Option AnyMap) :
    streamToMap now ⟨l, false⟩ old = some (.returned false old) := rfl


/-- The configuration of a map passes the checks of the constructors. -/
def AnyMap.ConfigValid : AnyMap → Prop
  | .hashedBlocks m => m.config.isValid = true
  | .waveletOctree m => m.config.isValid = true ∧ m.config.treeHeight ≤ 21
  | .hashedWavelet m => m.config.isValid = true
  | .hashedChunked m => m.config.isValid = true
  | .volumetricOctree _ => True

theorem HashedBlocks.readBlocks_config (n : Nat) : ∀ m s m' s', readBlocks n m s = some (m', s') → m'.config = m.config := by
  induction n with
  | zero => intro m s m' s' h; cases h; rfl
  | succ n ih =>
    intro m s m' s' h
    rw [readBlocks] at h
    split at h
    · dsimp only at h
      split at h
      · cases h
      · have := ih _ _ _ _ h; exact this
    · cases h

theorem HashedWaveletOctree.readBlocks_config (now : ℚ) (n : Nat) :
    ∀ m s m' s', readBlocks now n m s = some (.done m' s') → m'.config = m.config := by
  induction n with
  | zero => intro m s m' s' h; cases h; rfl
  | succ n ih =>
    intro m s m' s' h
    rw [readBlocks] at h
    split at h
    · dsimp only at h
      split at h
      · split at h
        · cases h
        · split at h
          · cases h
          · have := ih _ _ _ _ h; exact this
      · cases h
    · cases h

/-- C38: whatever the bytes are, a map that is returned has a valid configuration. -/
theorem C38_accepted_config_valid (now : ℚ) (s : IStream) (old : Option AnyMap) (r : Option AnyMap)
    (h : streamToMap now s old = some (.returned true r)) : ∃ m, r = some m ∧ m.ConfigValid := by
  unfold streamToMap at h
  split at h
  · dsimp only at h
    split at h
    · rw [Option.some.injEq] at h
      cases e : HashedBlocks.ofStream (peekFormat s).2 with
      | abort => rw [e] at h; cases h
      | failed => rw [e] at h; cases h
      | ok m s1 =>
        rw [e] at h
        cases h
        refine ⟨_, rfl, ?_⟩
        unfold HashedBlocks.ofStream at e
        split at e
        · dsimp only at e
          split at e
          · split at e
            · next hv =>
              split at e
              · cases e
              · next hr =>
                split at e
                · cases e
                  show m.config.isValid = true
                  rw [HashedBlocks.readBlocks_config _ _ _ _ _ hr]
                  exact hv
                · cases e
            · cases e
          · cases e
        · cases e
    · split at h
      · rw [Option.map_eq_some_iff] at h
        obtain ⟨res, e, h⟩ := h
        cases res with
        | abort => cases h
        | failed => cases h
        | ok m s1 =>
          cases h
          refine ⟨_, rfl, ?_⟩
          unfold WaveletOctree.ofStream at e
          split at e
          · dsimp only at e
            split at e
            · split at e
              · next hv =>
                split at e
                · cases e
                · split at e
                  · cases e
                    rw [Bool.and_eq_true, decide_eq_true_eq] at hv
                    exact hv
                  · cases e
              · cases e
            · cases e
          · cases e
      · split at h
        · rw [Option.map_eq_some_iff] at h
          obtain ⟨res, e, h⟩ := h
          cases res with
          | abort => cases h
          | failed => cases h
          | ok m s1 =>
            cases h
            refine ⟨_, rfl, ?_⟩
            unfold HashedWaveletOctree.ofStream at e
            split at e
            · dsimp only at e
              split at e
              · split at e
                · next hv =>
                  split at e
                  · cases e
                  · cases e
                  · cases e
                  · next hr =>
                    split at e
                    · cases e
                      show m.config.isValid = true
                      rw [HashedWaveletOctree.readBlocks_config _ _ _ _ _ _ hr]
                      exact hv
                    · cases e
                · cases e
              · cases e
            · cases e
        · cases h
  · cases h

/-! ## C60: saving -/

/-- The effect of `mapToStream` on a good stream: it reports success exactly if all bytes were written, and otherwise a strict
prefix of them was. -/
theorem C60_write_reports_failure (m : AnyMap) (hm : m.Savable) (os : OStream) (hg : os.good = true) :
    ∃ l, m.bytes = some (some l) ∧
      (l.length ≤ os.room → mapToStream m os = some (true, ⟨os.written ++ l, os.room - l.length, true⟩)) ∧
      (os.room < l.length → mapToStream m os = some (false, ⟨os.written ++ l.take os.room, 0, false⟩)) := by
  obtain ⟨l, h1, -⟩ := C38_written_map_loads m hm 0 none
  refine ⟨l, h1, fun h => ?_, fun h => ?_⟩
  · unfold mapToStream OStream.write
    rw [h1, Option.map_some]
    dsimp only
    rw [if_pos hg, if_pos hg, if_pos h]
  · unfold mapToStream OStream.write
    rw [h1, Option.map_some]
    dsimp only
    rw [if_pos hg, if_pos hg, if_neg (by omega)]

/-- C60: when saving succeeds, the file can be loaded and gives the map back; no other file is touched. -/
theorem C60_successful_save_loads (m : AnyMap) (hm : m.Savable) (fs fs' : FileSystem) (path : String) (canOpen : Bool) (room : Nat)
    (h : mapToFile fs path canOpen room m = some (true, fs')) (now : ℚ) (old : Option AnyMap) :
    (∃ m', fileToMap now fs' path true old = some (.returned true (some m')) ∧ ReloadsAs m m') ∧ ∀ q, q ≠ path → fs' q = fs q := by
  unfold mapToFile at h
  split at h
  · cases h
  · next hp =>
    split at h
    · rw [Option.map_eq_some_iff] at h
      obtain ⟨⟨b, os⟩, h1, h2⟩ := h
      simp only [Prod.mk.injEq] at h2
      obtain ⟨rfl, rfl⟩ := h2
      obtain ⟨l, hl, hyes, hno⟩ := C60_write_reports_failure m hm ⟨[], room, true⟩ rfl
      have hfit : l.length ≤ room := by
        by_contra hc
        rw [hno (by dsimp only; omega)] at h1
        cases h1
      rw [hyes hfit] at h1
      cases h1
      refine ⟨?_, fun q hq => if_neg hq⟩
      obtain ⟨l', hl', hload⟩ := C38_written_map_loads m hm now old
      rw [hl] at hl'
      cases hl'
      obtain ⟨m', h3, h4⟩ := hload []
      refine ⟨m', ?_, h4⟩
      unfold fileToMap
      rw [if_neg hp]
      dsimp only
      rw [if_pos rfl]
      dsimp only
      rw [if_pos rfl, List.nil_append]
      rw [List.append_nil] at h3
      exact h3
    · cases h

/-- C60: when saving fails, no other file is touched; the file itself is unchanged if it could not be opened. What is missing: a
file that was opened is overwritten before the map is known to be written (`C60_unsupported_map_fails`,
`C60_disk_full_fails`). -/
theorem C60_failed_save_partial (m : AnyMap) (fs fs' : FileSystem) (path : String) (canOpen : Bool) (room : Nat)
    (h : mapToFile fs path canOpen room m = some (false, fs')) : (∀ q, q ≠ path → fs' q = fs q) ∧ (canOpen = false → fs' = fs) := by
  unfold mapToFile at h
  split at h
  · cases h; exact ⟨fun _ _ => rfl, fun _ => rfl⟩
  · split at h
    · next hc =>
      rw [Option.map_eq_some_iff] at h
      obtain ⟨r, -, h2⟩ := h
      simp only [Prod.mk.injEq] at h2
      obtain ⟨-, rfl⟩ := h2
      exact ⟨fun q hq => if_neg hq, fun h => by rw [hc] at h; cases h⟩
    · cases h; exact ⟨fun _ _ => rfl, fun _ => rfl⟩

/-- C60 fails: saving a map of an unsupported type returns false, and whatever the file held before is gone. -/
theorem C60_unsupported_map_fails (m : VolumetricOctree) (fs : FileSystem) (path : String) (hp : path ≠ "") (room : Nat) :
    ∃ fs', mapToFile fs path true room (.volumetricOctree m) = some (false, fs') ∧ fs' path = some [] := by
  refine ⟨_, by unfold mapToFile; rw [if_neg hp, if_pos rfl]; rfl, if_pos rfl⟩

/-- C60 fails: a save that runs out of space returns false and leaves a strict prefix of the new map in place of the old file. A
later load does not mistake that prefix for a map (C38). -/
theorem C60_disk_full_fails (m : AnyMap) (hm : m.Savable) (fs : FileSystem) (path : String) (hp : path ≠ "") (room : Nat) (l : List Byte)
    (hl : m.bytes = some (some l)) (hr : room < l.length) :
    ∃ fs', mapToFile fs path true room m = some (false, fs') ∧ fs' path = some (l.take room) ∧
      ∀ now old map, fileToMap now fs' path true old ≠ some (.returned true map) := by
  obtain ⟨l', hl', -, hno⟩ := C60_write_reports_failure m hm ⟨[], room, true⟩ rfl
  rw [hl] at hl'
  cases hl'
  refine ⟨fun q => if q = path then some (l.take room) else fs q, ?_, if_pos rfl, fun now old map => ?_⟩
  · unfold mapToFile
    rw [if_neg hp, if_pos rfl, hno hr]
    rfl
  · unfold fileToMap
    rw [if_neg hp]
    dsimp only
    rw [if_pos rfl]
    dsimp only
    rw [if_pos rfl]
    have hne : l.drop room ≠ [] := by
      intro h
      have := congrArg List.length h
      rw [List.length_drop, List.length_nil] at this
      omega
    obtain ⟨h1, -, -⟩ := C38_truncated_partial m hm (l.take room) (l.drop room) (by rw [List.take_append_drop]; exact hl) hne now old
    rcases h1 with h | ⟨map, h⟩ <;> rw [h] <;> intro hh <;> cases hh


/-! ## Reachable maps satisfy the hypotheses -/

/-- Maps made by any sequence of cell and node writes are well-formed. -/
theorem C35_reachable_wellformed (config : WaveletOctreeConfig) (hv : config.isValid = true) (hH : config.treeHeight ≤ 20)
    (ops : List WaveletOp) (hops : ∀ o ∈ ops, NodeInMap config.treeHeight o.node) :
    (ops.foldl WaveletOp.run (WaveletOctree.create config)).WellFormed := by
  obtain ⟨hc, hr⟩ := WaveletOctree.run_all hH ops hops _ rfl _ (WaveletOctree.create_rep config)
  exact ⟨by rw [hc]; exact hv, by rw [hc]; exact hH, hr.1⟩

theorem run_config_all (ops : List HashedWaveletOp) (m : HashedWaveletOctree) : (ops.foldl HashedWaveletOp.run m).config = m.config := by
  induction ops generalizing m with
  | nil => rfl
  | cons o ops ih => rw [List.foldl_cons, ih]; exact HashedWaveletOctree.run_config m o

/-- Maps made by any sequence of operations are well-formed. -/
theorem C36_reachable_wellformed (m : HashedWaveletOctree) (hm : m.Reachable) : m.WellFormed := by
  have h := hm.inv
  obtain ⟨config, hv, hH, ops, rfl⟩ := hm
  refine ⟨by rw [run_config_all]; exact hv, h.le, h.nodup, fun e he => ?_⟩
  have := h.ok e.1 e.2 (SpatialHash.getBlock_of_mem h.nodup he)
  exact ⟨this.height, this.root⟩

/-- Maps made by any sequence of operations are well-formed. -/
theorem C37_reachable_wellformed (config : MapBaseConfig) (hv : config.isValid = true) (dv : ℚ) (ops : List HashedBlocksOp) :
    (ops.foldl HashedBlocksOp.run (HashedBlocks.create config dv)).WellFormed ∧
      (ops.foldl HashedBlocksOp.run (HashedBlocks.create config dv)).hash.defaultValue = dv := by
  have : ∀ (ops : List HashedBlocksOp) (m : HashedBlocks), m.Wf → (ops.foldl HashedBlocksOp.run m).Wf ∧
      (ops.foldl HashedBlocksOp.run m).config = m.config ∧ (ops.foldl HashedBlocksOp.run m).hash.defaultValue = m.hash.defaultValue := by
    intro ops
    induction ops with
    | nil => intro m h; exact ⟨h, rfl, rfl⟩
    | cons o ops ih =>
      intro m h
      obtain ⟨h1, h2, h3⟩ := ih _ (h.run o)
      refine ⟨h1, ?_, ?_⟩
      · rw [List.foldl_cons, h2]; cases o <;> rfl
      · rw [List.foldl_cons, h3]; cases o <;> rfl
  obtain ⟨h1, h2, h3⟩ := this ops (HashedBlocks.create config dv) (by
    unfold HashedBlocks.Wf DenseBlockHash.Wf; simp [HashedBlocks.create, DenseBlockHash.create, SpatialHash.keys])
  exact ⟨⟨by rw [h2]; exact hv, h1⟩, h3⟩

/-! ## Checking that numbers are floats -/

/-- A decidable sufficient condition. -/
def isFloatB (q : ℚ) : Bool :=
  decide (float32Bits q < 2 ^ 32) && decide (float32Bits q / 2 ^ 23 % 256 ≠ 255) && decide (float32OfBits (float32Bits q) = q)

theorem isFloatB_sound {q : ℚ} (h : isFloatB q = true) : IsFloat32 q := by
  simp only [isFloatB, Bool.and_eq_true, decide_eq_true_eq] at h
  exact ⟨_, h.1.1, h.1.2, h.2⟩

def detailsFloatB (a : Details 3) : Bool := (List.finRange (2 ^ 3 - 1)).all fun i => isFloatB (a i)

def treeFloatB : WTree → Bool
  | .nil => true
  | .leaf a => detailsFloatB a
  | .node a ch => detailsFloatB a && (List.finRange (2 ^ 3)).all fun c => treeFloatB (ch c)

theorem detailsFloatB_sound {a : Details 3} (h : detailsFloatB a = true) (i) : IsFloat32 (a i) := by
  unfold detailsFloatB at h
  rw [List.all_eq_true] at h
  exact isFloatB_sound (h i (List.mem_finRange i))

theorem treeFloatB_sound {t : WTree} (h : treeFloatB t = true) : t.AllFloat := by
  intro p
  induction p generalizing t with
  | nil =>
    intro i
    show IsFloat32 (WTree.details t i)
    cases t with
    | nil => exact isFloat32_zero
    | leaf a => exact detailsFloatB_sound (a := a) h i
    | node a ch =>
      rw [treeFloatB, Bool.and_eq_true] at h
      exact detailsFloatB_sound (a := a) h.1 i
  | cons c p ih =>
    refine ih (t := NTree.child t c) ?_
    cases t with
    | nil => rfl
    | leaf a => rfl
    | node a ch =>
      rw [treeFloatB, Bool.and_eq_true, List.all_eq_true] at h
      exact h.2 c (List.mem_finRange c)

def hashedFloatB (m : HashedWaveletOctree) : Bool :=
  isFloatB m.config.minCellWidth && isFloatB m.config.minLogOdds && isFloatB m.config.maxLogOdds &&
    m.blocks.all fun e => isFloatB e.2.rootScale && treeFloatB e.2.root

theorem hashedFloatB_sound {m : HashedWaveletOctree} (h : hashedFloatB m = true) : m.FloatValued := by
  simp only [hashedFloatB, Bool.and_eq_true, List.all_eq_true] at h
  obtain ⟨⟨⟨h1, h2⟩, h3⟩, h4⟩ := h
  exact ⟨isFloatB_sound h1, isFloatB_sound h2, isFloatB_sound h3, fun e he => isFloatB_sound (h4 e he).1,
    fun e he => treeFloatB_sound (h4 e he).2⟩

theorem chunked_floatValued {c : HashedChunkedWaveletOctree} {m : HashedWaveletOctree} (h : c.Rel m) (hf : m.FloatValued) : c.FloatValued := by
  have hmem : ∀ e ∈ c.blocks, ∃ e' ∈ m.blocks, EntryRel e e' := by
    intro e' he'
    have := h.blocks
    generalize c.blocks = l at this he'
    generalize m.blocks = l' at this ⊢
    induction this with
    | nil => cases he'
    | cons hh _ ih =>
      rcases List.mem_cons.1 he' with rfl | h
      · exact ⟨_, List.mem_cons_self, hh⟩
      · obtain ⟨e, h1, h2⟩ := ih h
        exact ⟨e, List.mem_cons_of_mem _ h1, h2⟩
  refine ⟨by rw [h.config]; exact hf.width, by rw [h.config]; exact hf.lo, by rw [h.config]; exact hf.hi, ?_, ?_⟩
  · intro e he
    obtain ⟨e', h1, h2⟩ := hmem e he
    rw [h2.2.scale]; exact hf.scale e' h1
  · intro e he p i
    obtain ⟨e', h1, h2⟩ := hmem e he
    have key : ∀ (q p0 : List (Fin (2 ^ 3))) (t : WTree), WChunks.Sub e.2.chunks p0 t → t.AllFloat →
        IsFloat32 (WChunks.details e.2.chunks (WChunks.at_ (p0 ++ q)) i) := by
      intro q
      induction q with
      | nil => intro p0 t ht hf; rw [List.append_nil, ht.details]; exact hf.details i
      | cons x q ih =>
        intro p0 t ht hf
        have := ih (p0 ++ [x]) _ (ht.child x) (hf.child x)
        rwa [List.append_assoc] at this
    exact key p [] _ h2.2.tree (hf.details e' h1)

/-! ## Where the round trip fails -/

/-- A map of one block of 64³ cells that are all known to be free, except for one that is known to be occupied. -/
def loneOccupied : HashedWaveletOctree :=
  HashedWaveletOctree.addToCellValue
    ⟨⟨1 / 8, -2, 4, 6, 5⟩, [(fun _ => 0, { WaveletBlock.create 6 (-2) 4 0 with rootScale := -2 })]⟩ (fun _ => 0) 6 0

theorem leaf_value (v : ℚ) (q : List (Fin (2 ^ 3))) : WTree.getValue (.leaf zeroDetails) v q = v := by
  cases q with
  | nil => rfl
  | cons c p =>
    rw [WTree.getValue_cons _ (by simp), NTree.child_leaf, WTree.getValue_nil]
    exact bwd_single_const v c

theorem loneOccupied_base : HashedWaveletOctree.Inv
    ⟨⟨1 / 8, -2, 4, 6, 5⟩, [(fun _ => 0, { WaveletBlock.create 6 (-2) 4 0 with rootScale := -2 })]⟩ := by
  refine ⟨by decide, by decide, by norm_num, by simp [SpatialHash.keys], fun k b hk => ?_⟩
  have hb : b = { WaveletBlock.create 6 (-2) 4 0 with rootScale := -2 } := by
    have := SpatialHash.mem_of_getBlock hk
    rw [List.mem_singleton, Prod.mk.injEq] at this
    exact this.2
  subst hb
  refine ⟨rfl, rfl, rfl, by simp [WaveletBlock.create], WTree.DepthLe.leaf _ _, fun _ => ?_, fun _ => ⟨rfl, rfl⟩⟩
  intro q _
  show (-2 : ℚ) ≤ WTree.getValue (.leaf zeroDetails) (-2) q ∧ WTree.getValue (.leaf zeroDetails) (-2) q ≤ 4
  rw [leaf_value]
  norm_num

theorem loneOccupied_blocks : loneOccupied.blocks.keys = [fun _ => 0] := by
  decide +kernel

theorem loneOccupied_savable : (AnyMap.hashedWavelet loneOccupied).Savable := by
  have hinv : loneOccupied.Inv := loneOccupied_base.add _ _ _
  refine ⟨⟨by decide +kernel, by decide, hinv.nodup, fun e he => ?_⟩, hashedFloatB_sound (by decide +kernel), fun e he => ?_, ?_⟩
  · have := hinv.ok e.1 e.2 (SpatialHash.getBlock_of_mem hinv.nodup he)
    exact ⟨this.height, this.root⟩
  · have : e.1 ∈ loneOccupied.blocks.keys := List.mem_map_of_mem he
    rw [loneOccupied_blocks, List.mem_singleton] at this
    rw [this]
    exact fun i => by revert i; decide
  · have := congrArg List.length loneOccupied_blocks
    simp only [SpatialHash.keys, List.length_map, List.length_singleton] at this
    rw [this]
    decide

/-- C36 fails: in this map, all of whose values are within the bounds, the occupied cell is free after saving and loading. -/
theorem C36_saturated_parent_fails : ∃ m : HashedWaveletOctree, (AnyMap.hashedWavelet m).Savable ∧
    (∀ j, m.config.minLogOdds ≤ m.getCellValue j ∧ m.getCellValue j ≤ m.config.maxLogOdds) ∧
    ∃ l m', m.bytes = some l ∧ HashedWaveletOctree.ofStream 0 ⟨l, true⟩ = some (.ok m' ⟨[], true⟩) ∧
      m.getCellValue (fun _ => 0) = m.config.maxLogOdds ∧ m'.getCellValue (fun _ => 0) < m.config.minLogOdds + 1 / 1000 := by
  obtain ⟨h1, h2, h3⟩ := loneOccupied_savable
  obtain ⟨l, h4, h5⟩ := C36_hashed_roundtrip_partial _ h1 h2 h3 0
  obtain ⟨m', h6, -, -, h9⟩ := h5 []
  rw [List.append_nil] at h6
  have hn : loneOccupied.getNodeValue ⟨5, fun _ => 0⟩ = -2 + 6 / 32768 := by decide +kernel
  have hs : Saturated loneOccupied.config.minLogOdds loneOccupied.config.maxLogOdds (loneOccupied.getNodeValue ⟨5, fun _ => 0⟩) := by
    decide +kernel
  refine ⟨loneOccupied, ⟨h1, h2, h3⟩, fun j => ?_, l, m', h4, h6, by decide +kernel, ?_⟩
  · have hbase : ∀ j, HashedWaveletOctree.getCellValue
        ⟨⟨1 / 8, -2, 4, 6, 5⟩, [(fun _ => 0, { WaveletBlock.create 6 (-2) 4 0 with rootScale := -2 })]⟩ j = -2 ∨
        HashedWaveletOctree.getCellValue
        ⟨⟨1 / 8, -2, 4, 6, 5⟩, [(fun _ => 0, { WaveletBlock.create 6 (-2) 4 0 with rootScale := -2 })]⟩ j = 0 := by
      intro j
      unfold HashedWaveletOctree.getCellValue
      split
      · exact Or.inr rfl
      · next b hb =>
        have := SpatialHash.mem_of_getBlock hb
        rw [List.mem_singleton, Prod.mk.injEq] at this
        rw [this.2]
        exact Or.inl (leaf_value _ _)
    have hz : HashedWaveletOctree.getCellValue
        ⟨⟨1 / 8, -2, 4, 6, 5⟩, [(fun _ => 0, { WaveletBlock.create 6 (-2) 4 0 with rootScale := -2 })]⟩ (fun _ => 0) = -2 := by
      decide +kernel
    show (-2 : ℚ) ≤ _ ∧ _ ≤ (4 : ℚ)
    unfold loneOccupied
    rw [HashedWaveletOctree.getCellValue_add loneOccupied_base]
    split
    · next h => rw [h, hz]; norm_num
    · rcases hbase j with h | h <;> rw [h] <;> norm_num
  · rcases h9 (fun _ => 0) with ⟨n, a, b, hr, c, d, hv⟩ | ⟨hno, -⟩
    · rw [hv]
      by_cases h5 : n.height = 5
      · rw [C03_region_iff_ancestor _ a, h5] at hr
        have : n = ⟨5, fun _ => 0⟩ := by
          rw [← hr]
          show (⟨5, _⟩ : NdtreeIndex 3) = _
          congr 1
        rw [this, hn]
        show (-2 : ℚ) + 6 / 32768 < -2 + 1 / 1000
        norm_num
      · change n.height < 6 at b
        exact absurd hs (d ⟨5, fun _ => 0⟩ (by show n.height < 5; omega) (by decide) (fun i => by revert i; decide))
    · exact absurd hs (hno ⟨5, fun _ => 0⟩ (by decide) (by decide) (fun i => by revert i; decide))

/-- C36 fails: the pruning delay of the configuration is lost. -/
theorem C36_config_fails : ∃ m : HashedWaveletOctree, m.Reachable ∧ (AnyMap.hashedWavelet m).Savable ∧
    ∃ l m', m.bytes = some l ∧ HashedWaveletOctree.ofStream 0 ⟨l, true⟩ = some (.ok m' ⟨[], true⟩) ∧ m'.config ≠ m.config := by
  have hr : HashedWaveletOctree.Reachable (.create ⟨1 / 8, -2, 4, 7, 30⟩) := ⟨⟨1 / 8, -2, 4, 7, 30⟩, by decide +kernel, by decide, [], rfl⟩
  have h1 := C36_reachable_wellformed _ hr
  have h2 : HashedWaveletOctree.FloatValued (.create ⟨1 / 8, -2, 4, 7, 30⟩) := hashedFloatB_sound (by decide +kernel)
  have h3 : FitsFile (HashedWaveletOctree.create ⟨1 / 8, -2, 4, 7, 30⟩).blocks :=
    ⟨fun e he => (by cases he), (by decide)⟩
  obtain ⟨l, h4, h5⟩ := C36_hashed_roundtrip_partial _ h1 h2 h3 0
  obtain ⟨m', h6, h7, -⟩ := h5 []
  rw [List.append_nil] at h6
  refine ⟨_, hr, ⟨h1, h2, h3⟩, l, m', h4, h6, ?_⟩
  rw [h7]
  intro h
  have := congrArg HashedWaveletOctreeConfig.onlyPruneBlocksIfUnusedFor h
  revert this
  decide +kernel

/-- A map with one cell above the upper bound, as `addToCellValue` makes it. -/
def overfull : HashedWaveletOctree := (HashedWaveletOctree.create ⟨1 / 8, -2, 4, 7, 5⟩).addToCellValue (fun _ => -1) 10 0

theorem overfull_reachable : overfull.Reachable := ⟨⟨1 / 8, -2, 4, 7, 5⟩, by decide +kernel, by decide, [.write (.add (fun _ => -1) 10 0)], rfl⟩

theorem overfull_blocks : overfull.blocks.keys = [fun _ => -1] := by decide +kernel

theorem overfull_savable : (AnyMap.hashedWavelet overfull).Savable := by
  refine ⟨C36_reachable_wellformed _ overfull_reachable, hashedFloatB_sound (by decide +kernel), fun e he => ?_, ?_⟩
  · have : e.1 ∈ overfull.blocks.keys := List.mem_map_of_mem he
    rw [overfull_blocks, List.mem_singleton] at this
    rw [this]
    exact fun i => by revert i; decide
  · have := congrArg List.length overfull_blocks
    simp only [SpatialHash.keys, List.length_map, List.length_singleton] at this
    rw [this]
    decide

/-- C36 fails: a saved map that still has to be thresholded loses that mark. `threshold()` brings the cell within the bounds, but
after saving and loading it no longer does. -/
theorem C36_threshold_after_load_fails : ∃ (m : HashedWaveletOctree) (j : Index 3), m.Reachable ∧ (AnyMap.hashedWavelet m).Savable ∧
    m.config.maxLogOdds < m.getCellValue j ∧ m.threshold.getCellValue j = m.config.maxLogOdds ∧
    ∃ l m', m.bytes = some l ∧ HashedWaveletOctree.ofStream 0 ⟨l, true⟩ = some (.ok m' ⟨[], true⟩) ∧
      m'.threshold.getCellValue j = m.getCellValue j := by
  obtain ⟨h1, h2, h3⟩ := overfull_savable
  obtain ⟨l, h4, h5⟩ := overfull.roundtrip h1 h2 h3 0
  obtain ⟨m', h6, h7, h8, h9⟩ := h5 []
  rw [List.append_nil] at h6
  refine ⟨overfull, fun _ => -1, overfull_reachable, ⟨h1, h2, h3⟩, by decide +kernel, by decide +kernel, l, m', h4, h6, ?_⟩
  have hget : ∀ k, m'.threshold.blocks.getBlock k = ((overfull.blocks.mapBlocks fun _ b =>
      (HashedWaveletOctree.reloaded overfull.config 0 b).threshold) : SpatialHash 3 WaveletBlock).getBlock k := by
    intro k
    have e1 := SpatialHash.getBlock_mapBlocks m'.blocks k fun _ b => b.threshold
    have e2 := SpatialHash.getBlock_mapBlocks overfull.blocks k fun _ b => (HashedWaveletOctree.reloaded overfull.config 0 b).threshold
    unfold HashedWaveletOctree.threshold
    dsimp only at e1 e2 ⊢
    rw [e1, e2, h9, Option.map_map]
    rfl
  have hm : m'.threshold.getCellValue (fun _ => -1) = HashedWaveletOctree.getCellValue ⟨overfull.config,
      overfull.blocks.mapBlocks fun _ b => (HashedWaveletOctree.reloaded overfull.config 0 b).threshold⟩ (fun _ => -1) := by
    have hH : m'.threshold.config.treeHeight = overfull.config.treeHeight := by
      show m'.config.treeHeight = _
      rw [h7]
    unfold HashedWaveletOctree.getCellValue HashedWaveletOctree.nodeToCellIndex
    rw [hget, hH]
  rw [hm]
  decide +kernel

/-- C37 fails: the default value is not stored. A map without blocks reads its default value everywhere; the loaded one reads 0. -/
theorem C37_default_fails : ∃ m : HashedBlocks, (AnyMap.hashedBlocks m).Savable ∧ ∃ m', HashedBlocks.ofStream ⟨m.bytes, true⟩ = .ok m' ⟨[], true⟩ ∧
    ∀ j, m.getCellValue j = 1 ∧ m'.getCellValue j = 0 := by
  have hs : (AnyMap.hashedBlocks (HashedBlocks.create ⟨1 / 8, -2, 4⟩ 1)).Savable := by
    refine ⟨⟨by decide +kernel, by simp [HashedBlocks.create, DenseBlockHash.create, SpatialHash.keys]⟩,
      ⟨isFloatB_sound (by decide +kernel), isFloatB_sound (by decide +kernel), isFloatB_sound (by decide +kernel), fun e he => (by cases he)⟩,
      ⟨fun e he => (by cases he), (by decide)⟩⟩
  obtain ⟨m', h1, -, h3⟩ := C37_allocated_cells _ hs.1 hs.2.1 hs.2.2 []
  rw [List.append_nil] at h1
  exact ⟨_, hs, m', h1, fun j => ⟨rfl, h3 j⟩⟩


/-! ## The hypotheses are met -/

/-- A wavelet octree with one written cell is well-formed and float-valued, so that C35, C38 and C60 apply to it. -/
example : (AnyMap.waveletOctree ((WaveletOctree.create ⟨1 / 8, -2, 4, 3⟩).setCellValue (fun _ => -1) 1)).Savable := by
  refine ⟨⟨by decide +kernel, by decide, ?_⟩, isFloatB_sound (by decide +kernel), isFloatB_sound (by decide +kernel),
    isFloatB_sound (by decide +kernel), isFloatB_sound (by decide +kernel), treeFloatB_sound (by decide +kernel)⟩
  rw [← NTree.isNil_false_iff]; decide +kernel

/-- A dense map with one written cell. -/
example : (AnyMap.hashedBlocks ((HashedBlocks.create ⟨1 / 8, -2, 4⟩ 0).setCellValue (fun _ => 3) 1)).Savable := by
  have hmap : ((HashedBlocks.create ⟨1 / 8, -2, 4⟩ 0).setCellValue (fun _ => 3) 1).hash.blockMap =
      [(indexToBlockIndex 4 fun _ => 3, DenseGrid.setAt 4 (fun _ => 0) (indexToCellIndex 4 fun _ : Fin 3 => 3) 1)] := by
    simp [HashedBlocks.setCellValue, HashedBlocks.create, DenseBlockHash.create, DenseBlockHash.updateValue, DenseBlockHash.getOrAllocateBlock,
      SpatialHash.getOrAllocateBlock, SpatialHash.modifyBlock, SpatialHash.getBlock]
  refine ⟨⟨by decide +kernel, by decide +kernel⟩, ⟨isFloatB_sound (by decide +kernel), isFloatB_sound (by decide +kernel),
    isFloatB_sound (by decide +kernel), fun e he i _ => ?_⟩, fun e he => ?_, by decide⟩
  · rw [hmap, List.mem_singleton] at he
    subst he
    unfold DenseGrid.setAt
    dsimp only
    split
    · exact isFloatB_sound (by decide +kernel)
    · exact isFloat32_zero
  · rw [hmap, List.mem_singleton] at he
    subst he
    exact fun i => by revert i; decide

/-- A chunked map with one written cell. -/
example : ∃ c, runChunkedMap ⟨1 / 8, -2, 4, 7, 5⟩ [.write (.add (fun _ => -1) 10 0)] = some c ∧ (AnyMap.hashedChunked c).Savable ∧
    c.getCellValue (fun _ => -1) = 10 := by
  obtain ⟨c, h1, h2, h3⟩ := HashedChunkedWaveletOctree.run_rel (config := ⟨1 / 8, -2, 4, 7, 5⟩) (by decide +kernel) [.write (.add (fun _ => -1) 10 0)]
  have hp : runPlainMap ⟨1 / 8, -2, 4, 7, 5⟩ [.write (.add (fun _ => -1) 10 0)] = overfull := rfl
  rw [hp] at h2 h3
  have hk := HashedChunkedWaveletOctree.blocks_keys h2.blocks
  rw [overfull_blocks] at hk
  refine ⟨c, h1, ⟨⟨_, _, by decide +kernel, h1⟩, chunked_floatValued h2 overfull_savable.2.1, fun e he => ?_, ?_⟩, ?_⟩
  · have : e.1 ∈ c.blocks.keys := List.mem_map_of_mem he
    rw [hk, List.mem_singleton] at this
    rw [this]
    exact fun i => by revert i; decide
  · have := congrArg List.length hk
    simp only [SpatialHash.keys, List.length_map, List.length_singleton] at this
    rw [this]
    decide
  · rw [h2.get]; decide +kernel

/-- A saved map has enough bytes for the prefixes `C38_truncated_config_fails` speaks of. -/
example : ∃ l, (AnyMap.hashedWavelet overfull).bytes = some (some l) ∧ 100 ≤ l.length := by
  obtain ⟨l, h1, -⟩ := C38_written_map_loads _ overfull_savable 0 none
  refine ⟨l, h1, ?_⟩
  have : ((AnyMap.hashedWavelet overfull).bytes.map fun o => o.map fun l => decide (100 ≤ l.length)) = some (some true) := by decide +kernel
  rw [h1] at this
  simpa using this

/-- The condition of `C36_unsaturated_exact` holds for instance for an empty map. -/
example (n : NdtreeIndex 3) : ¬ Saturated (-2) 4 ((HashedWaveletOctree.create ⟨1 / 8, -2, 4, 7, 5⟩).getNodeValue n) := by
  show ¬ Saturated (-2) 4 0
  decide +kernel


end Wavemap
