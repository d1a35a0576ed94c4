import Verif.Lemmas.SingleChunked
import Verif.Props.ChunkedWavelet
import Verif.Props.SinglePruning
/-!
# C80 and C19 for the chunked wavelet octree in single precision

The chunked and the plain hashed wavelet octree are driven by the same operations. In single precision they remain equal, bit by bit: the extra nodes of the chunked one carry zero
details and change no value. So the bounds on the rounding error of the plain octree hold for the chunked one.
-/
namespace Wavemap
open Haar

/-! ## Specification -/

/-- An operation on the plain map with a given rounding of the results of all arithmetic operations. -/
def HashedWaveletOp.rounded (q : ℚ → ℚ) (m : HashedWaveletOctree) : HashedWaveletOp → HashedWaveletOctree
  | .write (.add i u now) => Rounded.hashedAdd q m i u now
  | .write (.set i v now) => Rounded.hashedSet q m i v now
  | .write .threshold => Rounded.hashedThreshold q m
  | .write .clear => m.clear
  | .prune => Rounded.hashedPrune q m
  | .pruneSmart now => Rounded.hashedPruneSmart q m now
  | .eraseBlocks p => { m with blocks := m.blocks.eraseBlockIf fun k b => (b, p k) }

/-- The same operation on the chunked map with a given rounding of the results of all arithmetic operations. -/
def HashedWaveletOp.roundedChunked (q : ℚ → ℚ) (m : HashedChunkedWaveletOctree) : HashedWaveletOp → Option HashedChunkedWaveletOctree
  | .write (.add i u now) => some (Rounded.Chunked.hashedAdd q m i u now)
  | .write (.set i v now) => some (Rounded.Chunked.hashedSet q m i v now)
  | .write .threshold => Rounded.Chunked.hashedThreshold q m
  | .write .clear => some m.clear
  | .prune => Rounded.Chunked.hashedPrune q m
  | .pruneSmart now => Rounded.Chunked.hashedPruneSmart q m now
  | .eraseBlocks p => some (m.eraseBlockIf p)

/-- An operation on the plain map in single precision. -/
abbrev HashedWaveletOp.single : HashedWaveletOctree → HashedWaveletOp → HashedWaveletOctree := HashedWaveletOp.rounded fl

/-- The same operation on the chunked map in single precision. -/
abbrev HashedWaveletOp.singleChunked : HashedChunkedWaveletOctree → HashedWaveletOp → Option HashedChunkedWaveletOctree := HashedWaveletOp.roundedChunked fl

/-- The operations of `HashedUpdate`, whose effect on the exact log odds of a cell `HashedUpdate.after` defines. -/
def HashedUpdate.op : HashedUpdate → HashedWaveletOp
  | .add i u now => .write (.add i u now)
  | .threshold => .write .threshold
  | .prune => .prune
  | .pruneSmart now => .pruneSmart now
  | .clear => .write .clear

/-! ## Simulation -/

namespace SingleChunked
open ChunkedWaveletBlock HashedChunkedWaveletOctree

variable {ρ : ℚ → ℚ} [IsRounding ρ]

set_option linter.unusedSectionVars false

/-- What the simulation needs of a plain block. -/
structure BlockOk (ρ : ℚ → ℚ) (H : Nat) (lo hi : ℚ) (b : WaveletBlock) : Prop where
  height : b.treeHeight = H
  lo : b.minLogOdds = lo
  hi : b.maxLogOdds = hi
  root : b.root ≠ .nil
  depth : WTree.DepthLe H b.root
  scale : Fixed ρ b.rootScale

theorem path_length (H : Nat) (c : Index 3) : (nodePath H (⟨0, c⟩ : NdtreeIndex 3)).length = H := by
  unfold nodePath
  rw [mortonPath_length]
  · simp
  · simp

theorem addPath_ne_nil (t : WTree) (ht : t ≠ .nil) (p u) : (Rounded.addPath ρ t p u).1 ≠ .nil := by
  match p with
  | [] => exact ht
  | [c] => cases t <;> simp_all [Rounded.addPath, WTree.withDetails, NTree.setData]
  | c :: c' :: q => cases t <;> simp_all [Rounded.addPath, WTree.withDetails, NTree.setData, NTree.setChild]

variable {H : Nat} {lo hi : ℚ}

theorem anyAddPath_depth {h : Nat} {t : WTree} (hn : t ≠ .nil) (ht : WTree.DepthLe h t) (p : List (Fin (2 ^ 3))) (hp : p.length ≤ h) (u : ℚ) :
    WTree.DepthLe h (Rounded.addPath ρ t p u).1 := by
  induction p generalizing t h with
  | nil => exact ht
  | cons c p ih =>
    obtain ⟨h, rfl⟩ : ∃ k, h = k + 1 := ⟨h - 1, by rw [List.length_cons] at hp; omega⟩
    cases p with
    | nil => exact ht.setData _
    | cons c' p =>
      obtain ⟨h, rfl⟩ : ∃ k, h = k + 1 := ⟨h - 1, by simp only [List.length_cons] at hp; omega⟩
      simp only [Rounded.addPath, WTree.withDetails]
      apply WTree.DepthLe.setData
      apply WTree.DepthLe.setChild hn ht
      exact ih (NTree.getOrAllocateChild_ne_nil _ _ _) (ht.getOrAllocate c _) (by simp only [List.length_cons] at hp ⊢; omega)

theorem BlockOk.create (hpos : 0 < H) (now : ℚ) : BlockOk ρ H lo hi (WaveletBlock.create H lo hi now) := by
  obtain ⟨h, rfl⟩ : ∃ h, H = h + 1 := ⟨H - 1, by omega⟩
  exact ⟨rfl, rfl, rfl, by simp [WaveletBlock.create], WTree.DepthLe.leaf _ _, IsRounding.zero⟩

theorem BlockOk.add {b : WaveletBlock} (h : BlockOk ρ H lo hi b) (c : Index 3) (u now : ℚ) : BlockOk ρ H lo hi (Rounded.blockAdd ρ b ⟨0, c⟩ u now) := by
  refine ⟨h.height, h.lo, h.hi, addPath_ne_nil _ h.root _ _, ?_, IsRounding.idem _⟩
  exact anyAddPath_depth h.root h.depth _ (by rw [h.height, path_length]) u

theorem BlockOk.threshold {b : WaveletBlock} (h : BlockOk ρ H lo hi b) : BlockOk ρ H lo hi (Rounded.blockThreshold ρ b) := by
  unfold Rounded.blockThreshold
  split
  · refine ⟨h.height, h.lo, h.hi, fun e => h.root ((Rounded.anyThreshold_isNil _ _ _ _).1 e), Rounded.anyThreshold_depth h.depth _ _ _, ?_⟩
    show Fixed ρ (Rounded.recThreshold ρ _ _ _ _).2
    rw [Rounded.anyThreshold_scale _ _ _ h.root]
    exact Rounded.forward_isFloat _
  · exact h

theorem BlockOk.prune {b : WaveletBlock} (h : BlockOk ρ H lo hi b) : BlockOk ρ H lo hi (Rounded.blockPrune ρ b) := by
  unfold Rounded.blockPrune
  split
  · have h' := h.threshold
    exact ⟨h'.height, h'.lo, h'.hi, fun e => h'.root ((Rounded.anyPrune_isNil _).1 e), Rounded.anyPrune_depth h'.depth, h'.scale⟩
  · exact h

theorem BlockOk.pruneIf {b : WaveletBlock} (h : BlockOk ρ H lo hi b) (unusedFor now : ℚ) : BlockOk ρ H lo hi (Rounded.blockPruneIf ρ unusedFor now b) := by
  unfold Rounded.blockPruneIf
  split
  · exact h.prune
  · exact h

theorem rel_get {c : ChunkedWaveletBlock} {b : WaveletBlock} (h : c.Rel b) (hb : BlockOk ρ H lo hi b) (n : NdtreeIndex 3) :
    Rounded.Chunked.blockValue ρ c n = Rounded.blockValue ρ b n := by
  unfold Rounded.Chunked.blockValue Rounded.blockValue
  rw [root_eq, h.height, h.scale, Rounded.Chunked.getValue_sim (ρ := ρ) _ h.tree _ hb.scale]

theorem rel_add {c : ChunkedWaveletBlock} {b : WaveletBlock} (h : c.Rel b) (hb : BlockOk ρ H lo hi b) (n : NdtreeIndex 3) (u now : ℚ) :
    (Rounded.Chunked.blockAdd ρ c n u now).Rel (Rounded.blockAdd ρ b n u now) := by
  obtain ⟨h1, h2, -, -⟩ := Rounded.Chunked.addPath_sim (ρ := ρ) (nodePath b.treeHeight n) hb.root h.tree (h.live hb.root) u
  unfold Rounded.Chunked.blockAdd Rounded.blockAdd
  dsimp only
  rw [root_eq, h.height]
  exact ⟨rfl, h.lo, h.hi, by dsimp only; rw [h1, h.scale], rfl, rfl, rfl, h2⟩

theorem rel_set {c : ChunkedWaveletBlock} {b : WaveletBlock} (h : c.Rel b) (hb : BlockOk ρ H lo hi b) (n : NdtreeIndex 3) (v now : ℚ) :
    (Rounded.Chunked.blockSet ρ c n v now).Rel (Rounded.blockSet ρ b n v now) := by
  unfold Rounded.Chunked.blockSet Rounded.blockSet
  rw [root_eq, h.height, h.scale, Rounded.Chunked.currentValue_sim (ρ := ρ) _ h.tree]
  exact rel_add h hb _ _ _

theorem rel_threshold (hlo : Fixed ρ lo) (hhi : Fixed ρ hi) {c : ChunkedWaveletBlock} {b : WaveletBlock} (h : c.Rel b) (hb : BlockOk ρ H lo hi b) :
    ∃ c', Rounded.Chunked.blockThreshold ρ c = some c' ∧ c'.Rel (Rounded.blockThreshold ρ b) := by
  unfold Rounded.Chunked.blockThreshold Rounded.blockThreshold
  rw [h.thr]
  by_cases ht : b.needsThresholding = true
  · rw [if_pos ht, if_pos ht, root_eq]
    obtain ⟨s', w, e, hw, hs, -⟩ := Rounded.Chunked.recThreshold_sim (ρ := ρ) (lo := c.minLogOdds) (hi := c.maxLogOdds) (by rw [h.lo, hb.lo]; exact hlo)
      (by rw [h.hi, hb.hi]; exact hhi) c.fuel b.root H [] hb.depth
      (by unfold fuel; rw [h.height, hb.height]; omega) c.chunks h.tree (h.live hb.root) c.rootScale (by rw [h.scale]; exact hb.scale)
    rw [e]
    refine ⟨_, rfl, h.height, h.lo, h.hi, ?_, rfl, h.prn, h.stamp, ?_⟩
    · dsimp only; rw [hw, h.lo, h.hi, h.scale]
    · dsimp only; rw [← h.lo, ← h.hi, ← h.scale]; exact hs
  · rw [if_neg ht, if_neg ht]; exact ⟨c, rfl, h⟩

theorem rel_prune (hlo : Fixed ρ lo) (hhi : Fixed ρ hi) {c : ChunkedWaveletBlock} {b : WaveletBlock} (h : c.Rel b) (hb : BlockOk ρ H lo hi b) :
    ∃ c', Rounded.Chunked.blockPrune ρ c = some c' ∧ c'.Rel (Rounded.blockPrune ρ b) := by
  unfold Rounded.Chunked.blockPrune Rounded.blockPrune
  rw [h.prn]
  by_cases ht : b.needsPruning = true
  · rw [if_pos ht, if_pos ht]
    obtain ⟨c1, e1, h1⟩ := rel_threshold hlo hhi h hb
    have hb1 := hb.threshold
    rw [e1]
    dsimp only
    obtain ⟨s', e, hs, -⟩ := Rounded.Chunked.recPrune_sim (ρ := ρ) c1.fuel (Rounded.blockThreshold ρ b).root H [] hb1.depth
      (by unfold fuel; rw [h1.height, hb1.height]; omega) c1.chunks h1.tree (h1.live hb1.root)
    rw [root_eq, e]
    exact ⟨_, rfl, h1.height, h1.lo, h1.hi, h1.scale, h1.thr, rfl, h1.stamp, hs⟩
  · rw [if_neg ht, if_neg ht]; exact ⟨c, rfl, h⟩

theorem rel_empty {c : ChunkedWaveletBlock} {b : WaveletBlock} (h : c.Rel b) : Rounded.Chunked.blockEmpty ρ c = Rounded.blockEmpty ρ b := by
  unfold Rounded.Chunked.blockEmpty Rounded.blockEmpty WTree.nodeEmpty
  rw [root_eq, WChunks.Sub.flag h.tree, WChunks.Sub.details h.tree, h.scale]

/-- What the simulation needs of a plain map. -/
structure MapOk (ρ : ℚ → ℚ) (m : HashedWaveletOctree) : Prop where
  pos : 0 < m.config.treeHeight
  lo : Fixed ρ m.config.minLogOdds
  hi : Fixed ρ m.config.maxLogOdds
  ok : ∀ e ∈ m.blocks, BlockOk ρ m.config.treeHeight m.config.minLogOdds m.config.maxLogOdds e.2

theorem MapOk.alloc {m : HashedWaveletOctree} (hm : MapOk ρ m) (k : Index 3) (now : ℚ) : MapOk ρ (m.getOrAllocateBlock k now) := by
  refine ⟨hm.pos, hm.lo, hm.hi, fun e he => ?_⟩
  unfold HashedWaveletOctree.getOrAllocateBlock SpatialHash.getOrAllocateBlock at he
  dsimp only at he
  split at he
  · exact hm.ok e he
  · rcases List.mem_cons.1 he with rfl | he
    · exact BlockOk.create hm.pos now
    · exact hm.ok e he

theorem MapOk.modify {m : HashedWaveletOctree} (hm : MapOk ρ m) (k : Index 3) (f : WaveletBlock → WaveletBlock)
    (hf : ∀ b, BlockOk ρ m.config.treeHeight m.config.minLogOdds m.config.maxLogOdds b → BlockOk ρ m.config.treeHeight m.config.minLogOdds m.config.maxLogOdds (f b)) :
    MapOk ρ { m with blocks := m.blocks.modifyBlock k f } := by
  refine ⟨hm.pos, hm.lo, hm.hi, fun e he => ?_⟩
  obtain ⟨e', he', rfl⟩ := List.mem_map.1 he
  split
  · exact hf _ (hm.ok e' he')
  · exact hm.ok e' he'

theorem MapOk.erase {m : HashedWaveletOctree} (hm : MapOk ρ m) (f : Index 3 → WaveletBlock → WaveletBlock × Bool)
    (hf : ∀ k b, BlockOk ρ m.config.treeHeight m.config.minLogOdds m.config.maxLogOdds b → BlockOk ρ m.config.treeHeight m.config.minLogOdds m.config.maxLogOdds (f k b).1) :
    MapOk ρ { m with blocks := m.blocks.eraseBlockIf f } := by
  refine ⟨hm.pos, hm.lo, hm.hi, fun e he => ?_⟩
  obtain ⟨e', he', h⟩ := List.mem_filterMap.1 he
  dsimp only at h
  split at h
  · cases h
  · injection h with h
    rw [← h]
    exact hf _ _ (hm.ok e' he')

theorem MapOk.step {m : HashedWaveletOctree} (hm : MapOk ρ m) (o : HashedWaveletOp) : MapOk ρ (o.rounded ρ m) := by
  cases o with
  | write w =>
    cases w with
    | add i u now => exact (hm.alloc _ now).modify _ _ fun b hb => hb.add _ _ _
    | set i v now => exact (hm.alloc _ now).modify _ _ fun b hb => hb.add _ _ _
    | threshold =>
      refine ⟨hm.pos, hm.lo, hm.hi, fun e he => ?_⟩
      obtain ⟨e', he', rfl⟩ := List.mem_map.1 he
      exact (hm.ok e' he').threshold
    | clear => exact ⟨hm.pos, hm.lo, hm.hi, fun e he => by cases he⟩
  | prune => exact hm.erase _ fun k b hb => hb.prune
  | pruneSmart now => exact hm.erase _ fun k b hb => hb.pruneIf _ _
  | eraseBlocks p => exact hm.erase _ fun k b hb => hb

theorem drop_rel' {l : SpatialHash 3 ChunkedWaveletBlock} {l' : SpatialHash 3 WaveletBlock} (g : WaveletBlock → WaveletBlock)
    (h : List.Forall₂ EntryRel l (l'.map fun e => (e.1, g e.2))) :
    List.Forall₂ EntryRel (l.filter fun e => !Rounded.Chunked.blockEmpty ρ e.2) (l'.eraseBlockIf fun _ b => (g b, Rounded.blockEmpty ρ (g b))) := by
  unfold SpatialHash.eraseBlockIf
  induction l' generalizing l with
  | nil => rw [List.map_nil, List.forall₂_nil_right_iff] at h; subst h; exact .nil
  | cons e' l' ih =>
    rw [List.map_cons, List.forall₂_cons_right_iff] at h
    obtain ⟨e, l1, h1, h2, rfl⟩ := h
    have he : Rounded.Chunked.blockEmpty ρ e.2 = Rounded.blockEmpty ρ (g e'.2) := rel_empty h1.2
    rw [List.filter_cons, he]
    cases hx : Rounded.blockEmpty ρ (g e'.2) with
    | true =>
      rw [List.filterMap_cons_none (by simp [hx])]
      exact ih h2
    | false =>
      rw [List.filterMap_cons_some (b := (e'.1, g e'.2)) (by simp [hx])]
      exact .cons h1 (ih h2)

theorem cellIndex_eq {c : HashedChunkedWaveletOctree} {m : HashedWaveletOctree} (h : c.Rel m) (n : NdtreeIndex 3) :
    c.nodeToCellIndex n = m.nodeToCellIndex n := by
  unfold HashedChunkedWaveletOctree.nodeToCellIndex HashedWaveletOctree.nodeToCellIndex; rw [h.config]

/-- One operation. -/
theorem rel_step {c : HashedChunkedWaveletOctree} {m : HashedWaveletOctree} (h : c.Rel m) (hm : MapOk ρ m) (o : HashedWaveletOp) :
    ∃ c', o.roundedChunked ρ c = some c' ∧ c'.Rel (o.rounded ρ m) := by
  cases o with
  | write w =>
    cases w with
    | add i u now =>
      refine ⟨_, rfl, h.config, ?_⟩
      show List.Forall₂ EntryRel ((c.getOrAllocateBlock (indexToBlockIndex c.config.treeHeight i) now).blocks.modifyBlock
        (indexToBlockIndex c.config.treeHeight i) fun b => Rounded.Chunked.blockAdd ρ b
          ((c.getOrAllocateBlock (indexToBlockIndex c.config.treeHeight i) now).nodeToCellIndex ⟨0, i⟩) u now) _
      rw [h.config, cellIndex_eq (h.alloc _ now)]
      exact modify_rel (h.alloc _ now).blocks _ (fun b => Rounded.Chunked.blockAdd ρ b ((m.getOrAllocateBlock _ now).nodeToCellIndex ⟨0, i⟩) u now)
        (fun b => Rounded.blockAdd ρ b ((m.getOrAllocateBlock _ now).nodeToCellIndex ⟨0, i⟩) u now) fun x e he hx => rel_add hx ((hm.alloc _ _).ok e he) _ _ _
    | set i v now =>
      refine ⟨_, rfl, h.config, ?_⟩
      show List.Forall₂ EntryRel ((c.getOrAllocateBlock (indexToBlockIndex c.config.treeHeight i) now).blocks.modifyBlock
        (indexToBlockIndex c.config.treeHeight i) fun b => Rounded.Chunked.blockSet ρ b
          ((c.getOrAllocateBlock (indexToBlockIndex c.config.treeHeight i) now).nodeToCellIndex ⟨0, i⟩) v now) _
      rw [h.config, cellIndex_eq (h.alloc _ now)]
      exact modify_rel (h.alloc _ now).blocks _ (fun b => Rounded.Chunked.blockSet ρ b ((m.getOrAllocateBlock _ now).nodeToCellIndex ⟨0, i⟩) v now)
        (fun b => Rounded.blockSet ρ b ((m.getOrAllocateBlock _ now).nodeToCellIndex ⟨0, i⟩) v now) fun x e he hx => rel_set hx ((hm.alloc _ _).ok e he) _ _ _
    | threshold =>
      obtain ⟨l1, h1, h2⟩ := mapM_rel h.blocks (fun b => Rounded.Chunked.blockThreshold ρ b) (fun b => Rounded.blockThreshold ρ b)
        (fun x e he hx => rel_threshold hm.lo hm.hi hx (hm.ok e he))
      refine ⟨⟨c.config, l1⟩, ?_, h.config, h2⟩
      show c.mapBlocksM _ = _
      unfold mapBlocksM; rw [h1]; rfl
    | clear => exact ⟨_, rfl, h.config, .nil⟩
  | prune =>
    obtain ⟨l1, h1, h2⟩ := mapM_rel h.blocks (fun b => Rounded.Chunked.blockPrune ρ b) (fun b => Rounded.blockPrune ρ b)
      (fun x e he hx => rel_prune hm.lo hm.hi hx (hm.ok e he))
    refine ⟨⟨c.config, l1.filter fun e => !Rounded.Chunked.blockEmpty ρ e.2⟩, ?_, h.config, drop_rel' _ h2⟩
    show (c.mapBlocksM _).map _ = _
    unfold mapBlocksM; rw [h1]; rfl
  | pruneSmart now =>
    obtain ⟨l1, h1, h2⟩ := mapM_rel h.blocks
      (fun b => if c.config.onlyPruneBlocksIfUnusedFor < now - b.lastUpdated then Rounded.Chunked.blockPrune ρ b else some b)
      (fun b => Rounded.blockPruneIf ρ m.config.onlyPruneBlocksIfUnusedFor now b)
      (fun x e he hx => by
        unfold Rounded.blockPruneIf
        rw [hx.stamp, h.config]
        split
        · exact rel_prune hm.lo hm.hi hx (hm.ok e he)
        · exact ⟨x, rfl, hx⟩)
    refine ⟨⟨c.config, l1.filter fun e => !Rounded.Chunked.blockEmpty ρ e.2⟩, ?_, h.config, drop_rel' (fun b => Rounded.blockPruneIf ρ m.config.onlyPruneBlocksIfUnusedFor now b) h2⟩
    show (c.mapBlocksM _).map _ = _
    unfold mapBlocksM; rw [h1]; rfl
  | eraseBlocks p => exact ⟨_, rfl, h.config, erase_rel h.blocks p⟩

theorem rel_run {c : HashedChunkedWaveletOctree} {m : HashedWaveletOctree} (h : c.Rel m) (hm : MapOk ρ m) (ops : List HashedWaveletOp) :
    ∃ c', ops.foldlM (HashedWaveletOp.roundedChunked ρ) c = some c' ∧ c'.Rel (ops.foldl (HashedWaveletOp.rounded ρ) m) ∧ MapOk ρ (ops.foldl (HashedWaveletOp.rounded ρ) m) := by
  induction ops generalizing c m with
  | nil => exact ⟨c, rfl, h, hm⟩
  | cons o ops ih =>
    obtain ⟨c1, h1, h2⟩ := rel_step h hm o
    obtain ⟨c2, h3, h4⟩ := ih h2 (hm.step o)
    exact ⟨c2, by rw [List.foldlM_cons, h1]; exact h3, h4⟩

theorem rel_value {c : HashedChunkedWaveletOctree} {m : HashedWaveletOctree} (h : c.Rel m) (hm : MapOk ρ m) (k : Index 3) (n : NdtreeIndex 3) :
    (match c.blocks.getBlock k with | none => 0 | some b => Rounded.Chunked.blockValue ρ b n)
      = match m.blocks.getBlock k with | none => 0 | some b => Rounded.blockValue ρ b n := by
  rcases blocks_get h.blocks k with ⟨h1, h2⟩ | ⟨x, b, h1, h2, h3⟩
  · rw [h1, h2]
  · rw [h1, h2]
    have : (k, b) ∈ m.blocks := SpatialHash.mem_of_getBlock h2
    exact rel_get h3 (hm.ok _ this) _

end SingleChunked

/-! ## C19 and C80 -/

open SingleChunked in
/-- C19 with rounding: whatever the results of arithmetic operations are rounded to, as long as rounding keeps zero, the numbers that it has rounded itself and signs, after every history
of operations the chunked and the plain hashed wavelet octree hold the same blocks and return exactly the same value for every cell and for every node. The configured bounds are numbers
that rounding keeps. -/
theorem C19_any_rounding (q : ℚ → ℚ) [IsRounding q] (config : HashedWaveletOctreeConfig) (hc : config.isValidChunked = true) (hlo : q config.minLogOdds = config.minLogOdds)
    (hhi : q config.maxLogOdds = config.maxLogOdds) (ops : List HashedWaveletOp) :
    ∃ c, ops.foldlM (HashedWaveletOp.roundedChunked q) (HashedChunkedWaveletOctree.create config) = some c ∧
      (∀ i, Rounded.Chunked.hashedValue q c i = Rounded.hashedValue q (ops.foldl (HashedWaveletOp.rounded q) (HashedWaveletOctree.create config)) i) ∧
      (∀ n, Rounded.Chunked.hashedNodeValue q c n = Rounded.hashedNodeValue q (ops.foldl (HashedWaveletOp.rounded q) (HashedWaveletOctree.create config)) n) ∧
      c.blocks.keys = (ops.foldl (HashedWaveletOp.rounded q) (HashedWaveletOctree.create config)).blocks.keys := by
  simp only [HashedWaveletOctreeConfig.isValidChunked, Bool.and_eq_true, decide_eq_true_eq] at hc
  have hI := HashedWaveletOctree.Inv.create hc.1 (by have := hc.2; unfold maxSupportedTreeHeight at this; omega)
  obtain ⟨c, h1, h2, h3⟩ := rel_run (c := .create config) (m := .create config) ⟨rfl, .nil⟩ ⟨hI.pos, hlo, hhi, fun e he => by cases he⟩ ops
  refine ⟨c, h1, fun i => ?_, fun n => ?_, HashedChunkedWaveletOctree.blocks_keys h2.blocks⟩
  · unfold Rounded.Chunked.hashedValue Rounded.hashedValue
    rw [cellIndex_eq h2, h2.config]
    exact rel_value h2 h3 _ _
  · unfold Rounded.Chunked.hashedNodeValue Rounded.hashedNodeValue
    have : c.nodeToBlockIndex n = HashedWaveletOctree.nodeToBlockIndex (ops.foldl (HashedWaveletOp.rounded q) (HashedWaveletOctree.create config)) n := by
      unfold HashedChunkedWaveletOctree.nodeToBlockIndex HashedWaveletOctree.nodeToBlockIndex; rw [h2.config]
    rw [cellIndex_eq h2, this]
    exact rel_value h2 h3 _ _

/-- C19 in single precision: after every history of operations the chunked and the plain hashed wavelet octree hold the same blocks and return exactly the same value for every
cell and for every node. The configured bounds are single precision numbers. -/
theorem C19_single_precision (config : HashedWaveletOctreeConfig) (hc : config.isValidChunked = true) (hlo : IsFloat config.minLogOdds)
    (hhi : IsFloat config.maxLogOdds) (ops : List HashedWaveletOp) :
    ∃ c, ops.foldlM HashedWaveletOp.singleChunked (HashedChunkedWaveletOctree.create config) = some c ∧
      (∀ i, Rounded.Chunked.hashedValue fl c i = Rounded.hashedValue fl (ops.foldl HashedWaveletOp.single (HashedWaveletOctree.create config)) i) ∧
      (∀ n, Rounded.Chunked.hashedNodeValue fl c n = Rounded.hashedNodeValue fl (ops.foldl HashedWaveletOp.single (HashedWaveletOctree.create config)) n) ∧
      c.blocks.keys = (ops.foldl HashedWaveletOp.single (HashedWaveletOctree.create config)).blocks.keys :=
  C19_any_rounding fl config hc (fl_of_isFloat hlo) (fl_of_isFloat hhi) ops

/-- C80 for the chunked wavelet octree: after every history of updates, thresholdings and prunings, the log odds read from it in single precision are within `driftP` of the exact
ones. -/
theorem C80_chunked (config : HashedWaveletOctreeConfig) (hc : config.isValidChunked = true) (hlf : IsFloat config.minLogOdds)
    (hhf : IsFloat config.maxLogOdds) (h0 : config.minLogOdds ≤ 0) (h1 : 0 ≤ config.maxLogOdds) (ops : List HashedUpdate) (hops : ∀ o ∈ ops, o.Fits)
    (j : Index 3) (A : ℚ) (hlo : |config.minLogOdds| ≤ A) (hhi : |config.maxLogOdds| ≤ A)
    (hA : ∀ k i, SameBlock config.treeHeight j i → |(HashedUpdate.after config (ops.take k) i).1| ≤ A) :
    ∃ c, (ops.map HashedUpdate.op).foldlM HashedWaveletOp.singleChunked (HashedChunkedWaveletOctree.create config) = some c ∧
      |Rounded.Chunked.hashedValue fl c j - (HashedUpdate.after config ops j).1|
        ≤ driftP A config.treeHeight (HashedUpdate.updates config.treeHeight ops j) (HashedUpdate.clampings ops) (HashedUpdate.prunings ops) := by
  obtain ⟨c, e, hv, -⟩ := C19_single_precision config hc hlf hhf (ops.map HashedUpdate.op)
  refine ⟨c, e, ?_⟩
  simp only [HashedWaveletOctreeConfig.isValidChunked, Bool.and_eq_true, decide_eq_true_eq] at hc
  have hrun : (ops.map HashedUpdate.op).foldl HashedWaveletOp.single (HashedWaveletOctree.create config)
      = ops.foldl HashedUpdate.runRounded (HashedWaveletOctree.create config) := by
    rw [List.foldl_map]
    congr 1
    funext m o
    cases o <;> rfl
  rw [hv, hrun]
  exact C80_pruned config hc.1 (by have := hc.2; unfold maxSupportedTreeHeight at this; omega) h0 h1 ops hops j A hlo hhi hA

/-! ## The hypotheses can be met -/

/-- A history that sets and adds, thresholds and prunes (keeping one block and dropping another), in a map whose blocks have two levels of chunks. -/
example : let config : HashedWaveletOctreeConfig := ⟨1 / 10, -2, 4, 4, 5⟩
    let ops : List HashedWaveletOp := [.write (.add (fun _ => 0) 3 1), .write (.add (fun _ => 16) (1 / 2) 1), .write (.set (fun _ => 1) (-3) 2), .write .threshold,
      .write (.add (fun _ => 16) (-1 / 2) 3), .prune]
    config.isValidChunked = true ∧ IsFloat config.minLogOdds ∧ IsFloat config.maxLogOdds ∧
      (ops.foldl HashedWaveletOp.single (HashedWaveletOctree.create config)).blocks.keys = [fun _ => 0] := by
  refine ⟨by decide +kernel, ⟨-2, 0, by norm_num, by norm_num⟩, ⟨4, 0, by norm_num, by norm_num⟩, by decide +kernel⟩

end Wavemap
