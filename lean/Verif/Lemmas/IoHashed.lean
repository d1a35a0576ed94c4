import Verif.Lemmas.IoRead
import Verif.Lemmas.HashedWavelet
/-! Helper lemmas for C36 and C38: the hashed wavelet maps. -/
namespace Wavemap
open Haar Streamable NTree

/-! ## What is lost by the writer -/

/-- Reading a cell of the written tree: the mean of the first saturated node on its path, or the cell itself. -/
theorem dropSat_getValue (lo hi : ℚ) : ∀ (q : List (Fin (2 ^ 3))) (t : WTree) (s : ℚ),
    (∃ k, 0 < k ∧ k ≤ q.length ∧ (t.getValue s (q.take k) < lo + ioNoise ∨ hi - ioNoise < t.getValue s (q.take k)) ∧
      (∀ k', 0 < k' → k' < k → ¬ (t.getValue s (q.take k') < lo + ioNoise ∨ hi - ioNoise < t.getValue s (q.take k'))) ∧
      (WTree.dropSat lo hi t s).getValue s q = t.getValue s (q.take k)) ∨
    ((∀ k, 0 < k → k ≤ q.length → ¬ (t.getValue s (q.take k) < lo + ioNoise ∨ hi - ioNoise < t.getValue s (q.take k))) ∧
      (WTree.dropSat lo hi t s).getValue s q = t.getValue s q) := by
  intro q
  induction q with
  | nil =>
    intro t s; right
    refine ⟨fun k h1 h2 => ?_, ?_⟩
    · rw [List.length_nil] at h2; omega
    · rw [WTree.getValue_nil_path, WTree.getValue_nil_path]
  | cons c q ih =>
    intro t s
    cases ht : t.isNil with
    | true =>
      have : t = .nil := NTree.isNil_iff.1 ht
      subst this
      simp only [WTree.dropSat, WTree.getValue_nil]
      by_cases hs : s < lo + ioNoise ∨ hi - ioNoise < s
      · left; exact ⟨1, by omega, by simp, hs, fun k' _ _ => by omega, trivial⟩
      · right; exact ⟨fun _ _ _ => hs, trivial⟩
    | false =>
      have e1 : (WTree.dropSat lo hi t s).getValue s (c :: q)
          = WTree.getValue (NTree.child (WTree.dropSat lo hi t s) c) (backwardSingleChild 3 ⟨s, t.details⟩ c) q := by
        rw [WTree.getValue, WTree.dropSat_isNil, ht, WTree.dropSat_details]; rfl
      have e2 : ∀ q, t.getValue s (c :: q) = WTree.getValue (NTree.child t c) (backwardSingleChild 3 ⟨s, t.details⟩ c) q := by
        intro q
        rw [WTree.getValue, ht]; rfl
      have e3 : backward 3 ⟨s, t.details⟩ c = backwardSingleChild 3 ⟨s, t.details⟩ c := bwd3_single _ _
      have e4 : ∀ k, t.getValue s ((c :: q).take (k + 1)) = WTree.getValue (NTree.child t c) (backwardSingleChild 3 ⟨s, t.details⟩ c) (q.take k) := by
        intro k; rw [List.take_succ_cons, e2]
      rw [e1, e2, WTree.dropSat_child, e3]
      by_cases hsat : backwardSingleChild 3 ⟨s, t.details⟩ c < lo + ioNoise ∨ hi - ioNoise < backwardSingleChild 3 ⟨s, t.details⟩ c
      · rw [if_pos hsat]
        left
        refine ⟨0 + 1, by omega, by simp, ?_, fun k' _ _ => by omega, ?_⟩
        · rw [e4, List.take_zero, WTree.getValue_nil_path]; exact hsat
        · rw [e4, List.take_zero, WTree.getValue_nil_path, WTree.getValue_nil]
      · rw [if_neg hsat]
        rcases ih (NTree.child t c) (backwardSingleChild 3 ⟨s, t.details⟩ c) with ⟨k, h1, h2, h3, h4, h5⟩ | ⟨h1, h2⟩
        · left
          refine ⟨k + 1, by omega, by simp; omega, by rw [e4]; exact h3, fun k' hk' hk => ?_, by rw [e4]; exact h5⟩
          obtain ⟨k', rfl⟩ : ∃ i, k' = i + 1 := ⟨k' - 1, by omega⟩
          rw [e4]
          by_cases h0 : k' = 0
          · subst h0; rw [List.take_zero, WTree.getValue_nil_path]; exact hsat
          · exact h4 k' (by omega) (by omega)
        · right
          refine ⟨fun k hk hk2 => ?_, h2⟩
          obtain ⟨k, rfl⟩ : ∃ i, k = i + 1 := ⟨k - 1, by omega⟩
          rw [e4]
          by_cases h0 : k = 0
          · subst h0; rw [List.take_zero, WTree.getValue_nil_path]; exact hsat
          · exact h1 k (by omega) (by simp at hk2; omega)

namespace HashedWaveletOctree

/-! ## Writer -/

theorem blockBytes_eq (config : HashedWaveletOctreeConfig) (e : Index 3 × WaveletBlock) (he : e.2.root ≠ .nil) :
    blockBytes config e = some (BlockHeader.bytes ⟨e.1, e.2.rootScale⟩ ++
      (WTree.dropSat config.minLogOdds config.maxLogOdds e.2.root e.2.rootScale).bytes) := by
  unfold blockBytes
  rw [writeNodes_eq]
  · simp
  · intro x hx
    rw [List.mem_singleton] at hx
    subst hx; exact he
  · simp

/-- The bytes of a block. -/
def entryBytes (config : HashedWaveletOctreeConfig) (e : Index 3 × WaveletBlock) : List Byte :=
  BlockHeader.bytes ⟨e.1, e.2.rootScale⟩ ++ (WTree.dropSat config.minLogOdds config.maxLogOdds e.2.root e.2.rootScale).bytes

theorem bytes_eq (m : HashedWaveletOctree) (hm : ∀ e ∈ m.blocks, e.2.root ≠ .nil) :
    m.bytes = some (hashedWaveletHeader m.config m.blocks.length ++ m.blocks.flatMap (entryBytes m.config)) := by
  unfold bytes
  rw [WChunks.mapM_some m.blocks (blockBytes m.config) (entryBytes m.config) fun e he => blockBytes_eq m.config e (hm e he)]
  rw [List.flatMap_def]
  rfl

/-! ## Reader -/

theorem readBlocks_ext (now : ℚ) (n : Nat) : ∀ m s m' s', readBlocks now n m s = some (.done m' s') → s'.good = true →
    s.good = true ∧ ∀ X, readBlocks now n m (s.app X) = some (.done m' (s'.app X)) := by
  induction n with
  | zero =>
    intro m s m' s' h hg
    simp only [readBlocks, Option.some.injEq, BlocksResult.done.injEq] at h
    obtain ⟨rfl, rfl⟩ := h
    exact ⟨hg, fun X => rfl⟩
  | succ n ih =>
    intro m s m' s' h hg
    rw [readBlocks] at h
    by_cases hs : s.good = true
    · rw [if_pos hs] at h
      dsimp only at h
      by_cases hH : m.config.treeHeight ≤ maxWaveletTreeHeight
      · rw [if_pos hH] at h
        refine ⟨hs, fun X => ?_⟩
        obtain ⟨b, hb⟩ : ∃ b, (m.getOrAllocateBlock (BlockHeader.read s).1.offset now).blocks.getBlock (BlockHeader.read s).1.offset = some b := by
          refine ⟨(m.blocks.getBlock (BlockHeader.read s).1.offset).getD
            (.create m.config.treeHeight m.config.minLogOdds m.config.maxLogOdds now), ?_⟩
          simp only [getOrAllocateBlock, SpatialHash.getBlock_getOrAllocate, if_true]
        obtain ⟨⟨t, s1⟩, hr⟩ := readNodes_total b.root (BlockHeader.read s).2
        simp only [hb, hr] at h
        obtain ⟨h1, h2⟩ := ih _ _ _ _ h hg
        obtain ⟨h3, h4⟩ := readNodes_ext_fuel hr h1
        have e1 := blockHeader_ext.ext s X h3
        rw [readBlocks, if_pos (show (s.app X).good = true from hs), e1]
        dsimp only
        simp only [if_pos hH, hb, h4 X]
        exact h2 X
      · rw [if_neg hH] at h; cases h
    · rw [if_neg hs] at h; cases h

theorem ofStream_ext {now : ℚ} {s : IStream} {m s'} (h : ofStream now s = some (.ok m s')) :
    s.good = true ∧ s'.good = true ∧ ∀ X, ofStream now (s.app X) = some (.ok m (s'.app X)) := by
  unfold ofStream at h
  by_cases hs : s.good = true
  · rw [if_pos hs] at h
    dsimp only at h
    by_cases hf : (readFormat s).1 = kHashedWaveletOctree
    · rw [if_pos hf] at h
      by_cases hv : HashedWaveletOctreeConfig.isValid ⟨(HashedWaveletOctreeHeader.read (readFormat s).2).1.minCellWidth,
        (HashedWaveletOctreeHeader.read (readFormat s).2).1.minLogOdds, (HashedWaveletOctreeHeader.read (readFormat s).2).1.maxLogOdds,
        (HashedWaveletOctreeHeader.read (readFormat s).2).1.treeHeight.toNat, defaultOnlyPruneBlocksIfUnusedFor⟩ = true
      · rw [if_pos hv] at h
        split at h
        · cases h
        · cases h
        · cases h
        · next m1 s1 hr =>
          by_cases hg : s1.good = true
          · rw [if_pos hg] at h
            simp only [Option.some.injEq, LoadResult.ok.injEq] at h
            obtain ⟨rfl, rfl⟩ := h
            refine ⟨hs, hg, fun X => ?_⟩
            obtain ⟨h1, h2⟩ := readBlocks_ext _ _ _ _ _ _ hr hg
            have h3 := hashedWaveletHeader_ext.good _ h1
            have e1 := readFormat_ext.ext s X h3.1
            have e2 := hashedWaveletHeader_ext.ext _ X h1
            unfold ofStream
            rw [if_pos (show (s.app X).good = true from hs), e1]
            dsimp only
            rw [if_pos hf, e2]
            dsimp only
            rw [if_pos hv, h2 X]
            dsimp only
            rw [if_pos (show (s1.app X).good = true from hg)]
          · rw [if_neg hg] at h; cases h
      · rw [if_neg hv] at h; cases h
    · rw [if_neg hf] at h; cases h
  · rw [if_neg hs] at h; cases h

theorem readBlocks_total (now : ℚ) (n : Nat) : ∀ m s, ∃ r, readBlocks now n m s = some r := by
  induction n with
  | zero => intro m s; exact ⟨_, rfl⟩
  | succ n ih =>
    intro m s
    rw [readBlocks]
    by_cases hs : s.good = true
    · rw [if_pos hs]
      dsimp only
      by_cases hH : m.config.treeHeight ≤ maxWaveletTreeHeight
      · rw [if_pos hH]
        obtain ⟨b, hb⟩ : ∃ b, (m.getOrAllocateBlock (BlockHeader.read s).1.offset now).blocks.getBlock (BlockHeader.read s).1.offset = some b := by
          refine ⟨(m.blocks.getBlock (BlockHeader.read s).1.offset).getD
            (.create m.config.treeHeight m.config.minLogOdds m.config.maxLogOdds now), ?_⟩
          simp only [getOrAllocateBlock, SpatialHash.getBlock_getOrAllocate, if_true]
        obtain ⟨⟨t, s1⟩, hr⟩ := readNodes_total b.root (BlockHeader.read s).2
        simp only [hb, hr]
        exact ih _ _
      · rw [if_neg hH]; exact ⟨_, rfl⟩
    · rw [if_neg hs]; exact ⟨_, rfl⟩

/-- The reader always returns. -/
theorem ofStream_total (now : ℚ) (s : IStream) : ∃ r, ofStream now s = some r := by
  unfold ofStream
  by_cases hs : s.good = true
  · rw [if_pos hs]
    dsimp only
    by_cases hf : (readFormat s).1 = kHashedWaveletOctree
    · rw [if_pos hf]
      split
      · obtain ⟨r, hr⟩ := readBlocks_total now (HashedWaveletOctreeHeader.read (readFormat s).2).1.numBlocks
          (create ⟨(HashedWaveletOctreeHeader.read (readFormat s).2).1.minCellWidth,
          (HashedWaveletOctreeHeader.read (readFormat s).2).1.minLogOdds, (HashedWaveletOctreeHeader.read (readFormat s).2).1.maxLogOdds,
          (HashedWaveletOctreeHeader.read (readFormat s).2).1.treeHeight.toNat, defaultOnlyPruneBlocksIfUnusedFor⟩)
          (HashedWaveletOctreeHeader.read (readFormat s).2).2
        rw [hr]
        cases r <;> exact ⟨_, rfl⟩
      · exact ⟨_, rfl⟩
    · rw [if_neg hf]; exact ⟨_, rfl⟩
  · rw [if_neg hs]; exact ⟨_, rfl⟩

/-- The block a reader makes of a written block. -/
def reloaded (config : HashedWaveletOctreeConfig) (now : ℚ) (b : WaveletBlock) : WaveletBlock :=
  { WaveletBlock.create config.treeHeight config.minLogOdds config.maxLogOdds now with
    rootScale := b.rootScale, root := (WTree.dropSat config.minLogOdds config.maxLogOdds b.root b.rootScale).norm }

/-- A block with the content of a written block `b`. -/
structure Received (config : HashedWaveletOctreeConfig) (b b' : WaveletBlock) : Prop where
  height : b'.treeHeight = config.treeHeight
  scale : b'.rootScale = b.rootScale
  root : b'.root = (WTree.dropSat config.minLogOdds config.maxLogOdds b.root b.rootScale).norm

theorem readBlocks_roundtrip (now : ℚ) (config : HashedWaveletOctreeConfig) (hH : config.treeHeight ≤ maxWaveletTreeHeight) :
    ∀ (l : SpatialHash 3 WaveletBlock) (m : HashedWaveletOctree) (rest : List Byte), m.config.treeHeight = config.treeHeight →
    m.config.minLogOdds = config.minLogOdds → m.config.maxLogOdds = config.maxLogOdds → l.keys.Nodup →
    (∀ e ∈ l, Int32Index e.1 ∧ IsFloat32 e.2.rootScale ∧ e.2.root ≠ .nil ∧ e.2.root.AllFloat) →
    (∀ k ∈ l.keys, k ∉ m.blocks.keys) → m.blocks.keys.Nodup →
    ∃ m', readBlocks now l.length m ⟨l.flatMap (entryBytes config) ++ rest, true⟩ = some (.done m' ⟨rest, true⟩) ∧ m'.config = m.config ∧
      m'.blocks.keys.Nodup ∧ (∀ k, k ∉ l.keys → m'.blocks.getBlock k = m.blocks.getBlock k) ∧
      ∀ e ∈ l, m'.blocks.getBlock e.1 = some (reloaded config now e.2) := by
  intro l
  induction l with
  | nil =>
    intro m rest _ _ _ _ _ _ hn
    exact ⟨m, rfl, rfl, hn, fun _ _ => rfl, fun e he => by cases he⟩
  | cons e l ih =>
    intro m rest c1 c2 c3 hnd hok hdis hn
    have hnd' : e.1 ∉ SpatialHash.keys l ∧ (SpatialHash.keys l).Nodup := by simpa [SpatialHash.keys] using hnd
    obtain ⟨he1, he2, he3, he4⟩ := hok e List.mem_cons_self
    rw [List.length_cons, readBlocks, if_pos rfl, List.flatMap_cons, entryBytes, List.append_assoc, List.append_assoc,
      (blockHeader_reads (h := ⟨e.1, e.2.rootScale⟩) he1 he2).of]
    dsimp only
    rw [if_pos (by rw [c1]; exact hH)]
    have hnone : m.blocks.getBlock e.1 = none := SpatialHash.getBlock_eq_none.2 (hdis e.1 (by simp [SpatialHash.keys]))
    have hb : (m.getOrAllocateBlock e.1 now).blocks.getBlock e.1
        = some (.create config.treeHeight config.minLogOdds config.maxLogOdds now) := by
      simp only [getOrAllocateBlock, SpatialHash.getBlock_getOrAllocate, if_true, hnone, c1, c2, c3]
      rfl
    rw [hb]
    dsimp only
    have hne : WTree.dropSat config.minLogOdds config.maxLogOdds e.2.root e.2.rootScale ≠ .nil := by
      rw [← isNil_false_iff, WTree.dropSat_isNil, isNil_false_iff]; exact he3
    rw [show (WaveletBlock.create config.treeHeight config.minLogOdds config.maxLogOdds now).root = .leaf zeroDetails from rfl,
      readNodes_roundtrip _ hne (WTree.dropSat_allFloat _ _ he4 _)]
    dsimp only
    obtain ⟨G, hG⟩ : ∃ G, G = reloaded config now e.2 := ⟨_, rfl⟩
    have hG' := hG
    unfold reloaded at hG'
    rw [← hG']
    have hkeys : ∀ k, k ≠ e.1 → ((m.getOrAllocateBlock e.1 now).blocks.modifyBlock e.1 fun _ => G).getBlock k = m.blocks.getBlock k := by
      intro k hk
      rw [SpatialHash.getBlock_modify, if_neg hk]
      simp only [getOrAllocateBlock, SpatialHash.getBlock_getOrAllocate, if_neg hk]
    have hself : ((m.getOrAllocateBlock e.1 now).blocks.modifyBlock e.1 fun _ => G).getBlock e.1 = some G := by
      rw [SpatialHash.getBlock_modify, if_pos rfl, hb]; rfl
    obtain ⟨m', h1, h2, h4, h5, h6⟩ := ih
      { (m.getOrAllocateBlock e.1 now) with blocks := (m.getOrAllocateBlock e.1 now).blocks.modifyBlock e.1 fun _ => G }
      rest c1 c2 c3 hnd'.2 (fun x hx => hok x (List.mem_cons_of_mem _ hx))
      (by
        intro k hk
        rw [← SpatialHash.getBlock_eq_none]
        have hne : k ≠ e.1 := by rintro rfl; exact hnd'.1 hk
        dsimp only
        rw [hkeys k hne, SpatialHash.getBlock_eq_none]
        exact hdis k (by simp [SpatialHash.keys] at hk ⊢; exact Or.inr hk))
      (by
        dsimp only
        rw [SpatialHash.keys_modify]
        exact SpatialHash.keys_getOrAllocate _ _ _ hn)
    refine ⟨m', h1, h2, h4, ?_, ?_⟩
    · intro k hk
      have hk' : k ≠ e.1 ∧ k ∉ SpatialHash.keys l := by
        simp only [SpatialHash.keys, List.map_cons, List.mem_cons, not_or] at hk ⊢; exact hk
      rw [h5 k hk'.2]
      exact hkeys k hk'.1
    · intro x hx
      rw [List.mem_cons] at hx
      rcases hx with rfl | hx
      · rw [h5 _ hnd'.1, ← hG]; exact hself
      · exact h6 x hx

end HashedWaveletOctree

/-! ## The chunked writer -/

namespace WChunks

theorem getChild_fill {s : WChunks} {p : List (Fin (2 ^ 3))} {t : WTree} (hs : Sub s p t) {k : Nat} (hk : WTree.DepthLe k t) (i : Fin (2 ^ 3)) :
    (s.getChild 3 chunkHeight (at_ p) i = some (at_ (p ++ [i])) ∧ 0 < k ∧
      NTree.child (fill (k + 1) p.length t) i = fill (k - 1 + 1) (p ++ [i]).length (NTree.child t i)) ∨
    (s.getChild 3 chunkHeight (at_ p) i = none ∧ NTree.child (fill (k + 1) p.length t) i = .nil) := by
  have hlen : (ChunkNode.ofPath 3 chunkHeight (p ++ [i])).depth = (p.length + 1) % chunkHeight := by
    rw [ChunkNode.ofPath_depth hc3, List.length_append]; rfl
  have hg := Chunks.Sub.getChild hs i
  rw [hlen] at hg
  have hc := fill_child k p.length t i
  by_cases h : t.hasChildrenArray = true ∧ ((p.length + 1) % chunkHeight = 0 → (t.child i).isNil = false)
  · left
    rw [if_pos h] at hg hc
    have hk0 : 0 < k := hk.pos (by rintro rfl; exact absurd h.1 (by simp [NTree.hasChildrenArray]))
    refine ⟨hg, hk0, ?_⟩
    rw [hc, List.length_append]
    congr 1
    omega
  · right
    rw [if_neg h] at hg hc
    exact ⟨hg, hc⟩

theorem writeChunkNodes_eq (lo hi : ℚ) (s : WChunks) (fuel : Nat) :
    ∀ (stack : List (ℚ × List (Fin (2 ^ 3)) × WTree × Nat)), (∀ e ∈ stack, Sub s e.2.1 e.2.2.1 ∧ WTree.DepthLe e.2.2.2 e.2.2.1) →
    writeChunkNodes lo hi s fuel (stack.map fun e => (e.1, at_ e.2.1)) =
      writeNodes lo hi fuel (stack.map fun e => (e.1, fill (e.2.2.2 + 1) e.2.1.length e.2.2.1)) := by
  induction fuel with
  | zero => intro stack _; cases stack <;> rfl
  | succ fuel ih =>
    intro stack hst
    match stack with
    | [] => rfl
    | (v, p, t, k) :: stack =>
      obtain ⟨hs, hk⟩ := hst _ List.mem_cons_self
      dsimp only at hs hk
      rw [List.map_cons, List.map_cons, writeChunkNodes, writeNodes]
      dsimp only
      rw [hs.details, fill_details]
      have hhas : (fun c => (s.getChild 3 chunkHeight (at_ p) c).isSome) = fun c => NTree.hasChild (fill (k + 1) p.length t) c := by
        funext c
        unfold NTree.hasChild
        rcases getChild_fill hs hk c with ⟨h1, _, h2⟩ | ⟨h1, h2⟩
        · rw [h1, h2, (NTree.isNil_false_iff).2 (fill_ne_nil _ _ _)]; rfl
        · rw [h1, h2]; rfl
      rw [hhas]
      generalize hkept : keptChildren lo hi (backward 3 ⟨v, WTree.details t⟩) (NTree.hasChild (fill (k + 1) p.length t)) = kept
      have hmem : ∀ c ∈ kept, s.getChild 3 chunkHeight (at_ p) c = some (at_ (p ++ [c])) ∧
          NTree.child (fill (k + 1) p.length t) c = fill (k - 1 + 1) (p ++ [c]).length (NTree.child t c) := by
        intro c hc
        rcases getChild_fill hs hk c with ⟨h1, _, h2⟩ | ⟨h1, h2⟩
        · exact ⟨h1, h2⟩
        · rw [← hkept] at hc
          unfold keptChildren at hc
          rw [List.mem_filter] at hc
          have := hc.2
          unfold NTree.hasChild at this
          rw [h2] at this
          simp [NTree.isNil] at this
      have e1 : kept.filterMap (fun c => (s.getChild 3 chunkHeight (at_ p) c).map fun r' => (backward 3 ⟨v, WTree.details t⟩ c, r'))
          = (kept.map fun c => ((backward 3 ⟨v, WTree.details t⟩ c, p ++ [c], NTree.child t c, k - 1) :
              ℚ × List (Fin (2 ^ 3)) × WTree × Nat)).map fun e => (e.1, at_ e.2.1) := by
        rw [List.map_map]
        clear hkept
        induction kept with
        | nil => rfl
        | cons c kept ihk =>
          rw [List.filterMap_cons_some (b := (backward 3 ⟨v, WTree.details t⟩ c, at_ (p ++ [c]))) (by rw [(hmem c List.mem_cons_self).1]; rfl),
            List.map_cons, ihk fun x hx => hmem x (List.mem_cons_of_mem _ hx)]
          rfl
      have e2 : kept.map (fun c => (backward 3 ⟨v, WTree.details t⟩ c, NTree.child (fill (k + 1) p.length t) c))
          = (kept.map fun c => ((backward 3 ⟨v, WTree.details t⟩ c, p ++ [c], NTree.child t c, k - 1) :
              ℚ × List (Fin (2 ^ 3)) × WTree × Nat)).map fun e => (e.1, fill (e.2.2.2 + 1) e.2.1.length e.2.2.1) := by
        rw [List.map_map]
        apply List.map_congr_left
        intro c hc
        simp only [Function.comp]
        rw [(hmem c hc).2]
      rw [e1, e2, ← List.map_append, ← List.map_append, ih]
      intro e he
      rw [List.mem_append] at he
      rcases he with he | he
      · rw [List.mem_map] at he
        obtain ⟨c, _, rfl⟩ := he
        exact ⟨hs.child c, hk.child' c⟩
      · exact hst e (List.mem_cons_of_mem _ he)

theorem numNodes_depth (k : Nat) : ∀ t : WTree, WTree.DepthLe k t → 7 * t.numNodes + 1 ≤ (2 ^ 3) ^ k := by
  induction k with
  | zero => intro t h; have : t = .nil := h; subst this; decide
  | succ k ih =>
    intro t h
    have hc := fun i => ih (NTree.child t i) (h i)
    have hp : 0 < (2 ^ 3) ^ k := Nat.pow_pos (by decide)
    have hsucc : (2 ^ 3) ^ (k + 1) = (2 ^ 3) ^ k * 8 := Nat.pow_succ ..
    obtain ⟨K, hK⟩ : ∃ K, K = (2 ^ 3) ^ k := ⟨_, rfl⟩
    simp only [← hK] at hc hp hsucc
    cases t with
    | nil => simp only [numNodes]; omega
    | leaf a => simp only [numNodes]; omega
    | node a ch =>
      have : ∀ l : List (Fin (2 ^ 3)), 7 * (l.map fun c => (ch c).numNodes).sum + l.length ≤ l.length * K := by
        intro l
        induction l with
        | nil => simp
        | cons x l ihl =>
          have := hc x
          simp only [child_node] at this
          simp only [List.map_cons, List.sum_cons, List.length_cons, Nat.succ_mul]
          omega
      have := this (List.finRange (2 ^ 3))
      rw [List.length_finRange] at this
      simp only [numNodes]
      omega

end WChunks
end Wavemap
