import Verif.Props.WaveletMaintenance
import Verif.Props.HashedWavelet
/-!
# C56 – reported index bounds of the hashed maps
-/
namespace Wavemap
variable {d : Nat} {β : Type}

/-- Block indices the code can represent (`int32`). -/
def Int32Index (b : Index 3) : Prop := ∀ k, -2147483648 ≤ b k ∧ b k ≤ 2147483647

theorem minBlock_spec (m : SpatialHash 3 β) (hm : m ≠ []) (k : Fin 3) :
    (∀ e ∈ m, m.getMinBlockIndex k ≤ e.1 k) ∧ ((∀ e ∈ m, Int32Index e.1) → ∃ e ∈ m, m.getMinBlockIndex k = e.1 k) := by
  have h := foldl_min_le m (fun _ => true) (fun e => e.1) k fun _ => 2147483647
  simp only [if_true] at h
  have he : m.getMinBlockIndex k = (m.foldl (fun acc e i => min (acc i) (e.1 i)) fun _ => 2147483647) k := by
    unfold SpatialHash.getMinBlockIndex
    rw [if_neg (by simpa using hm)]
  rw [he]
  refine ⟨fun e hmem => h.2.1 e hmem trivial, fun h32 => ?_⟩
  rcases h.2.2 with h3 | ⟨e, hmem, _, h3⟩
  · cases m with
    | nil => exact absurd rfl hm
    | cons e m =>
      refine ⟨e, List.mem_cons_self, ?_⟩
      have h1 := h.2.1 e List.mem_cons_self trivial
      have h2 := (h32 e List.mem_cons_self k).2
      rw [h3] at h1
      rw [h3]; exact le_antisymm h1 h2
  · exact ⟨e, hmem, h3⟩

theorem maxBlock_spec (m : SpatialHash 3 β) (hm : m ≠ []) (k : Fin 3) :
    (∀ e ∈ m, e.1 k ≤ m.getMaxBlockIndex k) ∧ ((∀ e ∈ m, Int32Index e.1) → ∃ e ∈ m, m.getMaxBlockIndex k = e.1 k) := by
  have h := foldl_max_ge m (fun _ => true) (fun e => e.1) k fun _ => -2147483648
  simp only [if_true] at h
  have he : m.getMaxBlockIndex k = (m.foldl (fun acc e i => max (acc i) (e.1 i)) fun _ => -2147483648) k := by
    unfold SpatialHash.getMaxBlockIndex
    rw [if_neg (by simpa using hm)]
  rw [he]
  refine ⟨fun e hmem => h.2.1 e hmem trivial, fun h32 => ?_⟩
  rcases h.2.2 with h3 | ⟨e, hmem, _, h3⟩
  · cases m with
    | nil => exact absurd rfl hm
    | cons e m =>
      refine ⟨e, List.mem_cons_self, ?_⟩
      have h1 := h.2.1 e List.mem_cons_self trivial
      have h2 := (h32 e List.mem_cons_self k).1
      rw [h3] at h1
      rw [h3]; exact le_antisymm h2 h1
  · exact ⟨e, hmem, h3⟩

/-- The two block-based maps compute their bounds the same way. -/
theorem block_bounds (H : Nat) (m : SpatialHash 3 β) (j : Index 3) (k : Fin 3)
    (hj : ∃ b, InBlock H b j ∧ (m.getBlock b).isSome = true) :
    2 ^ H * m.getMinBlockIndex k ≤ j k ∧ j k ≤ 2 ^ H * (m.getMaxBlockIndex k + 1) - 1 := by
  obtain ⟨b, hb, hs⟩ := hj
  obtain ⟨x, hx⟩ := Option.isSome_iff_exists.1 hs
  have hmem := SpatialHash.mem_of_getBlock hx
  have hne : m ≠ [] := by rintro rfl; cases hmem
  have h1 := (minBlock_spec m hne k).1 _ hmem
  have h2 := (maxBlock_spec m hne k).1 _ hmem
  have h3 := hb k
  have hw := two_pow_pos' H
  simp only at h1 h2
  constructor
  · nlinarith
  · have : (2 : Int) ^ H * (b k + 1) ≤ 2 ^ H * (m.getMaxBlockIndex k + 1) := by nlinarith
    omega

theorem block_bounds_tight (H : Nat) (m : SpatialHash 3 β) (hn : m.keys.Nodup) (hne : m ≠ []) (h32 : ∀ e ∈ m, Int32Index e.1)
    (k : Fin 3) :
    (∃ j, (∃ b, InBlock H b j ∧ (m.getBlock b).isSome = true) ∧ j k = 2 ^ H * m.getMinBlockIndex k) ∧
    (∃ j, (∃ b, InBlock H b j ∧ (m.getBlock b).isSome = true) ∧ j k = 2 ^ H * (m.getMaxBlockIndex k + 1) - 1) := by
  have hw := two_pow_pos' H
  obtain ⟨e, he, h1⟩ := (minBlock_spec m hne k).2 h32
  obtain ⟨e', he', h2⟩ := (maxBlock_spec m hne k).2 h32
  refine ⟨⟨fun k => 2 ^ H * e.1 k, ⟨e.1, fun k => ?_, ?_⟩, by rw [h1]⟩,
    ⟨fun k => 2 ^ H * (e'.1 k + 1) - 1, ⟨e'.1, fun k => ?_, ?_⟩, by rw [h2]⟩⟩
  · constructor <;> nlinarith
  · rw [SpatialHash.getBlock_of_mem hn he]; rfl
  · constructor
    · nlinarith
    · dsimp only; omega
  · rw [SpatialHash.getBlock_of_mem hn he']; rfl

/-- C56 for the hashed wavelet octree: after any history, every allocated cell, so in particular every cell with a nonzero
value, lies within the reported bounds. -/
theorem C56_hashed_wavelet_bounds_cover (m : HashedWaveletOctree) (hm : m.Reachable) (j : Index 3) (k : Fin 3) :
    (m.getCellValue j ≠ 0 → m.Allocated j) ∧ (m.Allocated j → m.getMinIndex k ≤ j k ∧ j k ≤ m.getMaxIndex k) := by
  constructor
  · intro h
    rw [HashedWaveletOctree.allocated_iff]
    rw [HashedWaveletOctree.getCellValue_eq hm.inv] at h
    cases e : m.blocks.getBlock (indexToBlockIndex m.config.treeHeight j) with
    | none => rw [e] at h; exact absurd rfl h
    | some b => rfl
  · intro h
    have hb := block_bounds m.config.treeHeight m.blocks j k h
    have hne : m.blocks.isEmpty = false := by
      obtain ⟨b, _, hs⟩ := h
      cases hbl : m.blocks with
      | nil => rw [hbl] at hs; cases hs
      | cons e l => rfl
    unfold HashedWaveletOctree.getMinIndex HashedWaveletOctree.getMaxIndex
    rw [hne]
    simp only [Bool.false_eq_true, if_false, exp2_eq]
    push_cast
    exact hb

/-- C56: the bounds are tight on the level of allocated cells. -/
theorem C56_hashed_wavelet_bounds_tight (m : HashedWaveletOctree) (hm : m.Reachable) (hne : ∃ j, m.Allocated j)
    (h32 : ∀ e ∈ m.blocks, Int32Index e.1) (k : Fin 3) :
    (∃ j, m.Allocated j ∧ j k = m.getMinIndex k) ∧ (∃ j, m.Allocated j ∧ j k = m.getMaxIndex k) := by
  have hne' : m.blocks ≠ [] := by
    rintro hbl
    obtain ⟨j, b, _, hs⟩ := hne
    rw [hbl] at hs; cases hs
  have hb := block_bounds_tight m.config.treeHeight m.blocks hm.inv.nodup hne' h32 k
  have he : m.blocks.isEmpty = false := by simpa using hne'
  unfold HashedWaveletOctree.getMinIndex HashedWaveletOctree.getMaxIndex
  rw [he]
  simp only [Bool.false_eq_true, if_false, exp2_eq]
  push_cast
  exact hb

/-- C56 for the hashed-blocks map: every cell of an allocated block lies within the reported bounds, and cells outside read
the default value. -/
theorem C56_hashed_blocks_bounds_cover (m : HashedBlocks) (j : Index 3) (k : Fin 3) :
    (m.getCellValue j ≠ m.hash.defaultValue → m.hash.hasValue j = true) ∧
    (m.hash.hasValue j = true → m.getMinIndex k ≤ j k ∧ j k ≤ m.getMaxIndex k) := by
  constructor
  · intro h
    by_contra hc
    apply h
    simp only [HashedBlocks.getCellValue, DenseBlockHash.getValueOrDefault_eq]
    simp only [DenseBlockHash.hasValue, Bool.not_eq_true, Option.isSome_eq_false_iff, Option.isNone_iff_eq_none] at hc
    rw [hc]; rfl
  · intro h
    have hs : ∃ b, InBlock 4 b j ∧ (m.hash.blockMap.getBlock b).isSome = true := by
      refine ⟨_, (inBlock_iff _ _).2 rfl, ?_⟩
      simp only [DenseBlockHash.hasValue, DenseBlockHash.getValue] at h
      cases e : m.hash.blockMap.getBlock (indexToBlockIndex 4 j) with
      | none => rw [e] at h; cases h
      | some b => rfl
    have hb := block_bounds 4 m.hash.blockMap j k hs
    have hne : m.hash.blockMap.isEmpty = false := by
      obtain ⟨b, _, hs⟩ := hs
      cases hbl : m.hash.blockMap with
      | nil => rw [hbl] at hs; cases hs
      | cons e l => rfl
    unfold HashedBlocks.getMinIndex HashedBlocks.getMaxIndex
    rw [hne]
    exact hb

example : -- a reachable map with two blocks on both sides of the origin
    ∃ m : HashedWaveletOctree, m.Reachable ∧ m.Allocated (fun _ => -5) ∧ m.Allocated (fun _ => 7) ∧
      m.getMinIndex = (fun _ => -8) ∧ m.getMaxIndex = (fun _ => 7) ∧ (∀ e ∈ m.blocks, Int32Index e.1) := by
  refine ⟨[HashedWaveletOp.write (.add (fun _ => -6) 1 0), .write (.add (fun _ => 5) 1 0)].foldl HashedWaveletOp.run
    (.create ⟨1, -2, 4, 2, 5⟩), ⟨_, by decide +kernel, by decide, _, rfl⟩, by decide +kernel, by decide +kernel, ?_, ?_, ?_⟩
  · funext i; revert i; decide +kernel
  · funext i; revert i; decide +kernel
  · unfold Int32Index; decide +kernel

end Wavemap
