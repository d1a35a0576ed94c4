import Verif.Lemmas.Io
import Verif.Lemmas.SpatialHash
import Verif.Props.SubtreeIterator
/-! Helper lemmas for C35–C38: readers on longer streams, termination, block loops. -/
namespace Wavemap
open Haar Streamable NTree

theorem Reads.of {α : Type} {R : IStream → α × IStream} {e : List Byte} {a : α} (h : Reads R e a) (rest : List Byte) :
    R ⟨e ++ rest, true⟩ = (a, ⟨rest, true⟩) := h rest

/-! ## Termination -/

theorem readUInt8_bad (s : IStream) (h : s.readUInt8.2.good = false) : s.readUInt8.1 = 0 := by
  unfold IStream.readUInt8 IStream.read at h ⊢
  by_cases hg : s.good = true
  · simp only [if_pos hg] at h ⊢
    by_cases hl : (leBytes 1 0).length ≤ s.bytes.length
    · simp only [if_pos hl] at h
      cases h
    · simp only [if_neg hl]
      have : s.bytes = [] := by
        rw [leBytes_length] at hl
        exact List.length_eq_zero_iff.1 (by omega)
      rw [this]; rfl
  · simp only [if_neg hg]
    rfl

theorem node_read_bad (s : IStream) (h : (Node.read s).2.good = false) : (Node.read s).1.bitset = 0 := readUInt8_bad _ h

theorem announced_length (b : Nat) : (announced b).length ≤ 8 := by
  have := List.length_filter_le (fun c : Fin (2 ^ 3) => isBitSet b c.val) (List.finRange (2 ^ 3))
  rw [List.length_finRange] at this
  exact this

/-- The reader never runs out of fuel. -/
theorem readNodes_terminates (fuel : Nat) : ∀ st (t : WTree) s, st.length + 8 * s.bytes.length ≤ fuel →
    ∃ r, readNodes fuel st t s = some r := by
  induction fuel with
  | zero =>
    intro st t s h
    have : st = [] := List.length_eq_zero_iff.1 (by omega)
    subst this
    exact ⟨_, readNodes_nil _ _ _⟩
  | succ fuel ih =>
    intro st t s h
    cases st with
    | nil => exact ⟨_, readNodes_nil _ _ _⟩
    | cons p st =>
      rw [readNodes]
      apply ih
      rw [List.length_append, List.length_map]
      rw [List.length_cons] at h
      have hle := node_ext.le s
      cases hg : (Node.read s).2.good with
      | true =>
        have := (node_ext.good s hg).2
        have := announced_length (Node.read s).1.bitset
        omega
      | false =>
        rw [node_read_bad s hg, announced_zero, List.length_nil]
        omega

theorem readNodes_total (t : WTree) (s : IStream) : ∃ r, readNodes (readFuel s) [[]] t s = some r :=
  readNodes_terminates _ _ _ _ (by unfold readFuel; simp)

/-! ## More bytes after a successful read -/

theorem readNodes_ext (fuel : Nat) : ∀ st (t : WTree) s t' s', readNodes fuel st t s = some (t', s') → s'.good = true →
    s.good = true ∧ ∀ X, readNodes fuel st t (s.app X) = some (t', s'.app X) := by
  induction fuel with
  | zero =>
    intro st t s t' s' h hg
    cases st with
    | nil =>
      rw [readNodes_nil] at h
      simp only [Option.some.injEq, Prod.mk.injEq] at h
      obtain ⟨rfl, rfl⟩ := h
      exact ⟨hg, fun X => readNodes_nil _ _ _⟩
    | cons p st => simp [readNodes] at h
  | succ fuel ih =>
    intro st t s t' s' h hg
    cases st with
    | nil =>
      rw [readNodes_nil] at h
      simp only [Option.some.injEq, Prod.mk.injEq] at h
      obtain ⟨rfl, rfl⟩ := h
      exact ⟨hg, fun X => readNodes_nil _ _ _⟩
    | cons p st =>
      rw [readNodes] at h
      obtain ⟨h1, h2⟩ := ih _ _ _ _ _ h hg
      refine ⟨(node_ext.good s h1).1, fun X => ?_⟩
      rw [readNodes, node_ext.ext s X h1]
      exact h2 X

theorem readNodes_ext_fuel {t : WTree} {s : IStream} {t' s'} (h : readNodes (readFuel s) [[]] t s = some (t', s')) (hg : s'.good = true) :
    s.good = true ∧ ∀ X, readNodes (readFuel (s.app X)) [[]] t (s.app X) = some (t', s'.app X) := by
  obtain ⟨h1, h2⟩ := readNodes_ext _ _ _ _ _ _ h hg
  refine ⟨h1, fun X => ?_⟩
  have := readNodes_mono (readFuel s) (8 * X.length) _ _ _ _ (h2 X)
  rw [← this]
  congr 1
  unfold readFuel IStream.app
  simp only [List.length_append]
  omega

/-! ## HashedBlocks -/

namespace HashedBlocks

theorem readCells_ext (n : Nat) : ∀ l (g : DenseGrid ℚ), Ext (readCells n l g) (4 * n) := by
  induction n with
  | zero => intro l g; exact Ext.pure g
  | succ n ih =>
    intro l g
    have := Ext.bind IStream.readFloat_ext fun a => ih (l + 1) (fun k => if k = l then a else g k)
    rw [show 4 * (n + 1) = 4 + 4 * n by omega]
    exact this

theorem readCells_reads (n : Nat) : ∀ l (g src : DenseGrid ℚ), (∀ k, l ≤ k → k < l + n → IsFloat32 (src k)) →
    Reads (readCells n l g) ((List.range' l n).flatMap fun k => floatBytes (src k))
      (fun k => if l ≤ k ∧ k < l + n then src k else g k) := by
  induction n with
  | zero =>
    intro l g src _ rest
    show (g, _) = _
    congr 1
    funext k
    rw [if_neg (by omega)]
  | succ n ih =>
    intro l g src hs rest
    rw [List.range'_succ, List.flatMap_cons, List.append_assoc, readCells]
    rw [IStream.readFloat_reads (hs l (le_refl _) (by omega)) _]
    dsimp only
    rw [ih (l + 1) _ src (fun k h1 h2 => hs k (by omega) (by omega)) rest]
    congr 1
    funext k
    by_cases h1 : k = l
    · subst h1
      rw [if_neg (by omega), if_pos rfl, if_pos (by omega)]
    · by_cases h2 : l + 1 ≤ k ∧ k < l + 1 + n
      · rw [if_pos h2, if_pos (by omega)]
      · rw [if_neg h2, if_neg h1, if_neg (by omega)]

theorem readBlocks_ext (n : Nat) : ∀ m s m' s', readBlocks n m s = some (m', s') → s'.good = true →
    s.good = true ∧ ∀ X, readBlocks n m (s.app X) = some (m', s'.app X) := by
  induction n with
  | zero =>
    intro m s m' s' h hg
    simp only [readBlocks, Option.some.injEq, Prod.mk.injEq] at h
    obtain ⟨rfl, rfl⟩ := h
    exact ⟨hg, fun X => rfl⟩
  | succ n ih =>
    intro m s m' s' h hg
    rw [readBlocks] at h
    by_cases hs : s.good = true
    · rw [if_pos hs] at h
      refine ⟨hs, fun X => ?_⟩
      have hb : ∃ g, (m.hash.getOrAllocateBlock (readIndex3 s).1).blockMap.getBlock (readIndex3 s).1 = some g := by
        refine ⟨(m.hash.blockMap.getBlock (readIndex3 s).1).getD fun _ => m.hash.defaultValue, ?_⟩
        simp only [DenseBlockHash.getOrAllocateBlock, SpatialHash.getBlock_getOrAllocate, if_true]
      obtain ⟨g, hb⟩ := hb
      simp only [hb] at h
      obtain ⟨h1, h2⟩ := ih _ _ _ _ h hg
      have h3 := (readCells_ext _ _ _).good _ h1
      have e1 := readIndex3_ext.ext s X h3.1
      have e2 := (readCells_ext (DenseGrid.cellsPerBlock 3 4) 0 g).ext _ X h1
      rw [readBlocks, if_pos (show (s.app X).good = true from hs), e1]
      dsimp only
      simp only [hb, e2]
      exact h2 X
    · rw [if_neg hs] at h; cases h

theorem ofStream_ext {s : IStream} {m s'} (h : ofStream s = .ok m s') :
    s.good = true ∧ s'.good = true ∧ ∀ X, ofStream (s.app X) = .ok m (s'.app X) := by
  unfold ofStream at h
  by_cases hs : s.good = true
  · rw [if_pos hs] at h
    dsimp only at h
    by_cases hf : (readFormat s).1 = kHashedBlocks
    · rw [if_pos hf] at h
      by_cases hv : MapBaseConfig.isValid ⟨(HashedBlocksHeader.read (readFormat s).2).1.minCellWidth,
          (HashedBlocksHeader.read (readFormat s).2).1.minLogOdds, (HashedBlocksHeader.read (readFormat s).2).1.maxLogOdds⟩ = true
      · rw [if_pos hv] at h
        split at h
        · cases h
        · next m1 s1 hr =>
          by_cases hg : s1.good = true
          · rw [if_pos hg] at h
            simp only [LoadResult.ok.injEq] at h
            obtain ⟨rfl, rfl⟩ := h
            refine ⟨hs, hg, fun X => ?_⟩
            obtain ⟨h1, h2⟩ := readBlocks_ext _ _ _ _ _ hr hg
            have h3 := hashedBlocksHeader_ext.good _ h1
            have e1 := readFormat_ext.ext s X h3.1
            have e2 := hashedBlocksHeader_ext.ext _ X h1
            unfold ofStream
            rw [if_pos (show (s.app X).good = true from hs), e1]
            dsimp only
            rw [if_pos hf, e2]
            dsimp only
            rw [if_pos hv, h2 X]
            dsimp only
            rw [if_pos (show (s1.app X).good = true from hg)]
          · rw [if_neg hg] at h; cases h
      · rw [if_neg hv] at h; cases h
    · rw [if_neg hf] at h; cases h
  · rw [if_neg hs] at h; cases h

theorem blockBytes_eq (e : Index 3 × DenseGrid ℚ) : blockBytes e =
    index3Bytes e.1 ++ (List.range' 0 (DenseGrid.cellsPerBlock 3 4)).flatMap fun l => floatBytes (e.2 l) := by
  unfold blockBytes
  rw [List.range_eq_range']

theorem readBlocks_roundtrip : ∀ (l : SpatialHash 3 (DenseGrid ℚ)) (m : HashedBlocks) (rest : List Byte), l.keys.Nodup →
    (∀ e ∈ l, Int32Index e.1 ∧ ∀ i < DenseGrid.cellsPerBlock 3 4, IsFloat32 (e.2 i)) → (∀ k ∈ l.keys, k ∉ m.hash.blockMap.keys) → m.hash.blockMap.keys.Nodup →
    ∃ m', readBlocks l.length m ⟨l.flatMap blockBytes ++ rest, true⟩ = some (m', ⟨rest, true⟩) ∧ m'.config = m.config ∧
      m'.hash.defaultValue = m.hash.defaultValue ∧ m'.hash.blockMap.keys.Nodup ∧
      (∀ k, k ∉ l.keys → m'.hash.blockMap.getBlock k = m.hash.blockMap.getBlock k) ∧
      ∀ e ∈ l, ∃ g, m'.hash.blockMap.getBlock e.1 = some g ∧ ∀ i < DenseGrid.cellsPerBlock 3 4, g i = e.2 i := by
  intro l
  induction l with
  | nil =>
    intro m rest _ _ _ hn
    exact ⟨m, rfl, rfl, rfl, hn, fun _ _ => rfl, fun e he => by cases he⟩
  | cons e l ih =>
    intro m rest hnd hok hdis hn
    have hnd' : e.1 ∉ SpatialHash.keys l ∧ (SpatialHash.keys l).Nodup := by simpa [SpatialHash.keys] using hnd
    obtain ⟨he1, he2⟩ := hok e List.mem_cons_self
    rw [List.length_cons, readBlocks, if_pos rfl, List.flatMap_cons, blockBytes_eq, List.append_assoc, List.append_assoc,
      (readIndex3_reads he1).of]
    dsimp only
    have hb : (m.hash.getOrAllocateBlock e.1).blockMap.getBlock e.1
        = some ((m.hash.blockMap.getBlock e.1).getD fun _ => m.hash.defaultValue) := by
      simp only [DenseBlockHash.getOrAllocateBlock, SpatialHash.getBlock_getOrAllocate, if_true]
    rw [hb]
    dsimp only
    rw [(readCells_reads _ _ _ e.2 fun k _ hk => he2 k (by omega)).of]
    dsimp only
    generalize hG : (fun k => if 0 ≤ k ∧ k < 0 + DenseGrid.cellsPerBlock 3 4 then e.2 k
      else ((m.hash.blockMap.getBlock e.1).getD fun _ => m.hash.defaultValue) k) = G
    have hkeys : ∀ k, k ≠ e.1 → ((m.hash.getOrAllocateBlock e.1).blockMap.modifyBlock e.1 fun _ => G).getBlock k = m.hash.blockMap.getBlock k := by
      intro k hk
      rw [SpatialHash.getBlock_modify, if_neg hk]
      simp only [DenseBlockHash.getOrAllocateBlock, SpatialHash.getBlock_getOrAllocate, if_neg hk]
    have hself : ((m.hash.getOrAllocateBlock e.1).blockMap.modifyBlock e.1 fun _ => G).getBlock e.1 = some G := by
      rw [SpatialHash.getBlock_modify, if_pos rfl, hb]; rfl
    obtain ⟨m', h1, h2, h3, h4, h5, h6⟩ := ih
      { m with hash := { (m.hash.getOrAllocateBlock e.1) with blockMap := (m.hash.getOrAllocateBlock e.1).blockMap.modifyBlock e.1 fun _ => G } }
      rest hnd'.2 (fun x hx => hok x (List.mem_cons_of_mem _ hx))
      (by
        intro k hk
        rw [← SpatialHash.getBlock_eq_none]
        have hne : k ≠ e.1 := by rintro rfl; exact hnd'.1 hk
        dsimp only
        rw [hkeys k hne, SpatialHash.getBlock_eq_none]
        exact hdis k (by simp [SpatialHash.keys] at hk ⊢; exact Or.inr hk))
      (by
        dsimp only
        rw [SpatialHash.keys_modify]
        exact SpatialHash.keys_getOrAllocate _ _ _ hn)
    refine ⟨m', h1, h2, h3, h4, ?_, ?_⟩
    · intro k hk
      have hk' : k ≠ e.1 ∧ k ∉ SpatialHash.keys l := by
        simp only [SpatialHash.keys, List.map_cons, List.mem_cons, not_or] at hk ⊢; exact hk
      rw [h5 k hk'.2]
      exact hkeys k hk'.1
    · intro x hx
      rw [List.mem_cons] at hx
      rcases hx with rfl | hx
      · refine ⟨G, by rw [h5 _ hnd'.1]; exact hself, fun i hi => ?_⟩
        rw [← hG]
        dsimp only
        rw [if_pos (by omega)]
      · exact h6 x hx

end HashedBlocks

/-! ## WaveletOctree -/

namespace WaveletOctree

theorem ofStream_ext {s : IStream} {m s'} (h : ofStream s = some (.ok m s')) :
    s.good = true ∧ s'.good = true ∧ ∀ X, ofStream (s.app X) = some (.ok m (s'.app X)) := by
  unfold ofStream at h
  by_cases hs : s.good = true
  · rw [if_pos hs] at h
    dsimp only at h
    by_cases hf : (readFormat s).1 = kWaveletOctree
    · rw [if_pos hf] at h
      by_cases hv : (WaveletOctreeConfig.isValid ⟨(WaveletOctreeHeader.read (readFormat s).2).1.minCellWidth, (WaveletOctreeHeader.read (readFormat s).2).1.minLogOdds,
        (WaveletOctreeHeader.read (readFormat s).2).1.maxLogOdds, (WaveletOctreeHeader.read (readFormat s).2).1.treeHeight.toNat⟩
        && decide ((WaveletOctreeHeader.read (readFormat s).2).1.treeHeight.toNat ≤ maxWaveletTreeHeight)) = true
      · rw [if_pos hv] at h
        split at h
        · cases h
        · next t1 s1 hr =>
          by_cases hg : s1.good = true
          · rw [if_pos hg] at h
            simp only [Option.some.injEq, LoadResult.ok.injEq] at h
            obtain ⟨rfl, rfl⟩ := h
            refine ⟨hs, hg, fun X => ?_⟩
            obtain ⟨h1, h2⟩ := readNodes_ext_fuel hr hg
            have h3 := waveletOctreeHeader_ext.good _ h1
            have e1 := readFormat_ext.ext s X h3.1
            have e2 := waveletOctreeHeader_ext.ext _ X h1
            unfold ofStream
            rw [if_pos (show (s.app X).good = true from hs), e1]
            dsimp only
            rw [if_pos hf, e2]
            dsimp only
            rw [if_pos hv, h2 X]
            dsimp only
            rw [if_pos (show (s1.app X).good = true from hg)]
          · rw [if_neg hg] at h; cases h
      · rw [if_neg hv] at h; cases h
    · rw [if_neg hf] at h; cases h
  · rw [if_neg hs] at h; cases h

/-- The reader always returns. -/
theorem ofStream_total (s : IStream) : ∃ r, ofStream s = some r := by
  unfold ofStream
  by_cases hs : s.good = true
  · rw [if_pos hs]
    dsimp only
    split
    · split
      · obtain ⟨⟨t, s'⟩, hr⟩ := readNodes_total (create ⟨(WaveletOctreeHeader.read (readFormat s).2).1.minCellWidth,
          (WaveletOctreeHeader.read (readFormat s).2).1.minLogOdds, (WaveletOctreeHeader.read (readFormat s).2).1.maxLogOdds,
          (WaveletOctreeHeader.read (readFormat s).2).1.treeHeight.toNat⟩).root (WaveletOctreeHeader.read (readFormat s).2).2
        rw [hr]
        exact ⟨_, rfl⟩
      · exact ⟨_, rfl⟩
    · exact ⟨_, rfl⟩
  · rw [if_neg hs]; exact ⟨_, rfl⟩

theorem bytes_eq (m : WaveletOctree) : m.bytes = some (formatBytes kWaveletOctree ++
    (WaveletOctreeHeader.bytes ⟨m.config.minCellWidth, m.config.minLogOdds, m.config.maxLogOdds, m.config.treeHeight, m.rootScale⟩ ++
      m.root.bytes)) := by
  unfold bytes
  have := pre_loop m.root m.root.numNodes (iterStart m.root) (iterStart_ne m.root) (by
    rw [iterStart_paths, prePaths_length])
  rw [this, iterStart_paths]
  simp only [Option.map_some, List.append_assoc]
  rw [WTree.prePaths_bytes m.root m.root [] rfl]

end WaveletOctree
end Wavemap
