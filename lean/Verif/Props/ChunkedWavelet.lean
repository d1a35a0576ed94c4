import Verif.Lemmas.ChunkedWavelet
import Verif.Props.HashedWavelet
/-!
# C19: the chunked and the plain hashed wavelet octree agree; C23 for the chunked one

The two maps are driven by the same sequence of operations (`HashedWaveletOp`: set, add, threshold, clear, prune,
pruneSmart, erasing blocks). Running the chunked map can in principle fail in the model (recursion deeper than the tree), so its histories
are folded in `Option`.
-/
namespace Wavemap
open Haar

/-! ## Specification -/

/-- The operation on the chunked map. -/
def HashedWaveletOp.runChunked (m : HashedChunkedWaveletOctree) : HashedWaveletOp → Option HashedChunkedWaveletOctree
  | .write (.add i u now) => some (m.addToCellValue i u now)
  | .write (.set i v now) => some (m.setCellValue i v now)
  | .write .threshold => m.threshold
  | .write .clear => some m.clear
  | .prune => m.prune
  | .pruneSmart now => m.pruneSmart now
  | .eraseBlocks p => some (m.eraseBlockIf p)

/-- The chunked map after a history. -/
def runChunkedMap (config : HashedWaveletOctreeConfig) (ops : List HashedWaveletOp) : Option HashedChunkedWaveletOctree :=
  ops.foldlM HashedWaveletOp.runChunked (HashedChunkedWaveletOctree.create config)

/-- The plain map after the same history. -/
def runPlainMap (config : HashedWaveletOctreeConfig) (ops : List HashedWaveletOp) : HashedWaveletOctree :=
  ops.foldl HashedWaveletOp.run (HashedWaveletOctree.create config)

/-! ## Simulation -/

/-- Corresponding blocks. -/
structure ChunkedWaveletBlock.Rel (c : ChunkedWaveletBlock) (b : WaveletBlock) : Prop where
  height : c.treeHeight = b.treeHeight
  lo : c.minLogOdds = b.minLogOdds
  hi : c.maxLogOdds = b.maxLogOdds
  scale : c.rootScale = b.rootScale
  thr : c.needsThresholding = b.needsThresholding
  prn : c.needsPruning = b.needsPruning
  stamp : c.lastUpdated = b.lastUpdated
  tree : WChunks.Sub c.chunks [] b.root

/-- The structural facts about a plain block that the simulation needs. -/
structure WaveletBlock.Shape (b : WaveletBlock) (H : Nat) : Prop where
  height : b.treeHeight = H
  root : b.root ≠ .nil
  depth : WTree.DepthLe H b.root

theorem WaveletBlock.Shape.threshold {b : WaveletBlock} {H : Nat} (h : b.Shape H) : b.threshold.Shape H := by
  unfold WaveletBlock.threshold
  split
  · exact ⟨h.height, fun e => h.root ((WTree.recThreshold_isNil _ _ _ _).1 e), h.depth.recThreshold _ _ _⟩
  · exact h

theorem WaveletBlock.Ok.shape {b : WaveletBlock} {H : Nat} {lo hi : ℚ} (h : b.Ok H lo hi) : b.Shape H := ⟨h.height, h.root, h.depth⟩

/-- The structural facts about a plain map that the simulation needs. -/
structure HashedWaveletOctree.Shaped (m : HashedWaveletOctree) : Prop where
  pos : 0 < m.config.treeHeight
  nodup : m.blocks.keys.Nodup
  ok : ∀ k b, m.blocks.getBlock k = some b → b.Shape m.config.treeHeight

theorem HashedWaveletOctree.Inv.shaped {m : HashedWaveletOctree} (h : m.Inv) : m.Shaped :=
  ⟨h.pos, h.nodup, fun k b hb => (h.ok k b hb).shape⟩

namespace ChunkedWaveletBlock

theorem root_eq : ChunkNode.root = WChunks.at_ [] := rfl

theorem Rel.live {c : ChunkedWaveletBlock} {b : WaveletBlock} (h : c.Rel b) (hr : b.root ≠ .nil) :
    c.chunks.live (WChunks.at_ []) = true := by
  have := Chunks.Sub.root_live h.tree rfl
  rw [this, NTree.isNil_false.2 hr]; rfl

theorem Rel.create (H : Nat) (lo hi now : ℚ) : (ChunkedWaveletBlock.create H lo hi now).Rel (WaveletBlock.create H lo hi now) :=
  ⟨rfl, rfl, rfl, rfl, rfl, rfl, rfl, Chunks.fresh_sub WChunks.hc3 _⟩

theorem Rel.get {c : ChunkedWaveletBlock} {b : WaveletBlock} (h : c.Rel b) (n : NdtreeIndex 3) :
    c.getCellValue n = b.getCellValue n := by
  unfold ChunkedWaveletBlock.getCellValue WaveletBlock.getCellValue
  rw [root_eq, WChunks.getValue_eq _ h.tree, h.height, h.scale]

theorem Rel.add {c : ChunkedWaveletBlock} {b : WaveletBlock} (h : c.Rel b) (hr : b.root ≠ .nil) (n : NdtreeIndex 3) (u now : ℚ) :
    (c.addToCellValue n u now).Rel (b.addToCellValue n u now) := by
  obtain ⟨h1, h2, -, -⟩ := WChunks.addPath_spec (nodePath b.treeHeight n) hr h.tree (h.live hr) u
  unfold ChunkedWaveletBlock.addToCellValue WaveletBlock.addToCellValue
  dsimp only
  rw [root_eq, h.height]
  exact ⟨rfl, h.lo, h.hi, by dsimp only; rw [h1, h.scale], rfl, rfl, rfl, h2⟩

theorem Rel.set {c : ChunkedWaveletBlock} {b : WaveletBlock} (h : c.Rel b) (hr : b.root ≠ .nil) (n : NdtreeIndex 3) (v now : ℚ) :
    (c.setCellValue n v now).Rel (b.setCellValue n v now) := by
  have e1 : c.setCellValue n v now = c.addToCellValue n (v - c.chunks.currentValue .root c.rootScale (nodePath c.treeHeight n)) now := rfl
  rw [e1, b.set_eq_add, root_eq, WChunks.currentValue_eq _ h.tree, h.height, h.scale]
  exact h.add hr _ _ _

variable {H : Nat}

theorem Rel.threshold {c : ChunkedWaveletBlock} {b : WaveletBlock} (h : c.Rel b) (hb : b.Shape H) :
    ∃ c', c.threshold = some c' ∧ c'.Rel b.threshold := by
  unfold ChunkedWaveletBlock.threshold WaveletBlock.threshold
  rw [h.thr]
  by_cases ht : b.needsThresholding = true
  · rw [if_pos ht, if_pos ht, root_eq]
    obtain ⟨s', w, e, hw, hs, -⟩ := WChunks.recThreshold_spec c.minLogOdds c.maxLogOdds c.fuel b.root H [] hb.depth
      (by unfold fuel; rw [h.height, hb.height]; omega) c.chunks h.tree (h.live hb.root) c.rootScale
    rw [e]
    refine ⟨_, rfl, h.height, h.lo, h.hi, ?_, rfl, h.prn, h.stamp, ?_⟩
    · dsimp only; rw [hw, h.lo, h.hi, h.scale]
    · dsimp only; rw [← h.lo, ← h.hi, ← h.scale]; exact hs
  · rw [if_neg ht, if_neg ht]; exact ⟨c, rfl, h⟩

theorem Rel.prune {c : ChunkedWaveletBlock} {b : WaveletBlock} (h : c.Rel b) (hb : b.Shape H) :
    ∃ c', c.prune = some c' ∧ c'.Rel b.prune := by
  unfold ChunkedWaveletBlock.prune WaveletBlock.prune
  rw [h.prn]
  by_cases ht : b.needsPruning = true
  · rw [if_pos ht, if_pos ht]
    obtain ⟨c1, e1, h1⟩ := h.threshold hb
    have hb1 := hb.threshold
    rw [e1]
    dsimp only
    obtain ⟨s', e, hs, -⟩ := WChunks.recPrune_spec c1.fuel b.threshold.root H [] hb1.depth
      (by unfold fuel; rw [h1.height, hb1.height]; omega) c1.chunks h1.tree (h1.live hb1.root)
    rw [root_eq, e]
    exact ⟨_, rfl, h1.height, h1.lo, h1.hi, h1.scale, h1.thr, rfl, h1.stamp, hs⟩
  · rw [if_neg ht, if_neg ht]; exact ⟨c, rfl, h⟩

theorem Rel.empty {c : ChunkedWaveletBlock} {b : WaveletBlock} (h : c.Rel b) : c.empty = b.empty := by
  unfold ChunkedWaveletBlock.empty WaveletBlock.empty WTree.nodeEmpty
  rw [root_eq, WChunks.Sub.flag h.tree, WChunks.Sub.details h.tree, h.scale]

end ChunkedWaveletBlock

/-- Corresponding entries of the block maps. -/
def EntryRel (e : Index 3 × ChunkedWaveletBlock) (e' : Index 3 × WaveletBlock) : Prop := e.1 = e'.1 ∧ e.2.Rel e'.2

/-- Corresponding maps. -/
structure HashedChunkedWaveletOctree.Rel (c : HashedChunkedWaveletOctree) (m : HashedWaveletOctree) : Prop where
  config : c.config = m.config
  blocks : List.Forall₂ EntryRel c.blocks m.blocks

namespace HashedChunkedWaveletOctree

theorem blocks_keys {l : SpatialHash 3 ChunkedWaveletBlock} {l' : SpatialHash 3 WaveletBlock} (h : List.Forall₂ EntryRel l l') :
    l.keys = l'.keys := by
  induction h with
  | nil => rfl
  | cons h _ ih => simp only [SpatialHash.keys, List.map_cons] at ih ⊢; rw [h.1, ih]

theorem blocks_get {l : SpatialHash 3 ChunkedWaveletBlock} {l' : SpatialHash 3 WaveletBlock} (h : List.Forall₂ EntryRel l l') (k : Index 3) :
    (l.getBlock k = none ∧ l'.getBlock k = none) ∨ ∃ c b, l.getBlock k = some c ∧ l'.getBlock k = some b ∧ c.Rel b := by
  induction h with
  | nil => exact Or.inl ⟨rfl, rfl⟩
  | @cons e e' l l' h _ ih =>
    obtain ⟨k1, c⟩ := e
    obtain ⟨k2, b⟩ := e'
    obtain ⟨h1, h2⟩ := h
    dsimp only at h1 h2
    subst h1
    simp only [SpatialHash.getBlock]
    by_cases hk : k1 = k
    · rw [if_pos hk, if_pos hk]; exact Or.inr ⟨c, b, rfl, rfl, h2⟩
    · rw [if_neg hk, if_neg hk]; exact ih

theorem Rel.get {c : HashedChunkedWaveletOctree} {m : HashedWaveletOctree} (h : c.Rel m) (i : Index 3) :
    c.getCellValue i = m.getCellValue i := by
  unfold getCellValue HashedWaveletOctree.getCellValue
  have e : c.nodeToCellIndex ⟨0, i⟩ = m.nodeToCellIndex ⟨0, i⟩ := by
    unfold nodeToCellIndex HashedWaveletOctree.nodeToCellIndex; rw [h.config]
  rw [e, h.config]
  rcases blocks_get h.blocks (indexToBlockIndex m.config.treeHeight i) with ⟨h1, h2⟩ | ⟨x, b, h1, h2, h3⟩
  · rw [h1, h2]
  · rw [h1, h2]; exact h3.get _

theorem Rel.getNode {c : HashedChunkedWaveletOctree} {m : HashedWaveletOctree} (h : c.Rel m) (n : NdtreeIndex 3) :
    c.getNodeValue n = m.getNodeValue n := by
  unfold getNodeValue HashedWaveletOctree.getNodeValue
  have e : c.nodeToCellIndex n = m.nodeToCellIndex n := by
    unfold nodeToCellIndex HashedWaveletOctree.nodeToCellIndex; rw [h.config]
  have e2 : c.nodeToBlockIndex n = m.nodeToBlockIndex n := by
    unfold nodeToBlockIndex HashedWaveletOctree.nodeToBlockIndex; rw [h.config]
  rw [e, e2]
  rcases blocks_get h.blocks (m.nodeToBlockIndex n) with ⟨h1, h2⟩ | ⟨x, b, h1, h2, h3⟩
  · rw [h1, h2]
  · rw [h1, h2]; exact h3.get _

theorem Rel.alloc {c : HashedChunkedWaveletOctree} {m : HashedWaveletOctree} (h : c.Rel m) (k : Index 3) (now : ℚ) :
    (c.getOrAllocateBlock k now).Rel (m.getOrAllocateBlock k now) := by
  refine ⟨h.config, ?_⟩
  unfold getOrAllocateBlock HashedWaveletOctree.getOrAllocateBlock SpatialHash.getOrAllocateBlock
  dsimp only
  rcases blocks_get h.blocks k with ⟨h1, h2⟩ | ⟨x, b, h1, h2, -⟩
  · rw [h1, h2, h.config]
    exact List.Forall₂.cons ⟨rfl, .create _ _ _ _⟩ h.blocks
  · rw [h1, h2]; exact h.blocks

theorem modify_rel {l : SpatialHash 3 ChunkedWaveletBlock} {l' : SpatialHash 3 WaveletBlock} (h : List.Forall₂ EntryRel l l') (k : Index 3)
    (f : ChunkedWaveletBlock → ChunkedWaveletBlock) (g : WaveletBlock → WaveletBlock)
    (hfg : ∀ c, ∀ e ∈ l', c.Rel e.2 → (f c).Rel (g e.2)) : List.Forall₂ EntryRel (l.modifyBlock k f) (l'.modifyBlock k g) := by
  unfold SpatialHash.modifyBlock
  induction h with
  | nil => exact .nil
  | @cons e e' l l' h _ ih =>
    rw [List.map_cons, List.map_cons]
    refine .cons ?_ (ih fun c e he => hfg c e (List.mem_cons_of_mem _ he))
    rw [h.1]
    by_cases hk : e'.1 = k
    · rw [if_pos hk, if_pos hk]; exact ⟨rfl, hfg _ e' List.mem_cons_self h.2⟩
    · rw [if_neg hk, if_neg hk]; exact h

theorem root_ok {m : HashedWaveletOctree} (hm : m.Shaped) (k : Index 3) (now : ℚ) (e : Index 3 × WaveletBlock)
    (he : e ∈ (m.getOrAllocateBlock k now).blocks) : e.2.root ≠ .nil := by
  unfold HashedWaveletOctree.getOrAllocateBlock SpatialHash.getOrAllocateBlock at he
  dsimp only at he
  split at he
  · exact (hm.ok e.1 e.2 (SpatialHash.getBlock_of_mem hm.nodup he)).root
  · rcases List.mem_cons.1 he with rfl | he
    · exact (WaveletBlock.Ok.create (H := m.config.treeHeight) (lo := m.config.minLogOdds) (hi := m.config.maxLogOdds) hm.pos now).1
    · exact (hm.ok e.1 e.2 (SpatialHash.getBlock_of_mem hm.nodup he)).root

theorem mapM_rel {l : SpatialHash 3 ChunkedWaveletBlock} {l' : SpatialHash 3 WaveletBlock} (h : List.Forall₂ EntryRel l l')
    (f : ChunkedWaveletBlock → Option ChunkedWaveletBlock) (g : WaveletBlock → WaveletBlock)
    (hfg : ∀ c, ∀ e ∈ l', c.Rel e.2 → ∃ c', f c = some c' ∧ c'.Rel (g e.2)) :
    ∃ l1, (l.mapM fun (e : Index 3 × ChunkedWaveletBlock) => (f e.2).map fun b => (e.1, b)) = some l1 ∧
      List.Forall₂ EntryRel l1 (l'.map fun e => (e.1, g e.2)) := by
  induction h with
  | nil => exact ⟨[], rfl, .nil⟩
  | @cons e e' l l' h _ ih =>
    obtain ⟨l1, h1, h2⟩ := ih fun c e he => hfg c e (List.mem_cons_of_mem _ he)
    obtain ⟨c', h3, h4⟩ := hfg e.2 e' List.mem_cons_self h.2
    refine ⟨(e.1, c') :: l1, ?_, .cons ⟨h.1, h4⟩ h2⟩
    rw [List.mapM_cons, h3, h1]
    rfl

theorem drop_rel {l : SpatialHash 3 ChunkedWaveletBlock} {l' : SpatialHash 3 WaveletBlock} (g : WaveletBlock → WaveletBlock)
    (h : List.Forall₂ EntryRel l (l'.map fun e => (e.1, g e.2))) :
    List.Forall₂ EntryRel (l.filter fun e => !e.2.empty) (l'.eraseBlockIf fun _ b => (g b, (g b).empty)) := by
  unfold SpatialHash.eraseBlockIf
  induction l' generalizing l with
  | nil => rw [List.map_nil, List.forall₂_nil_right_iff] at h; subst h; exact .nil
  | cons e' l' ih =>
    rw [List.map_cons, List.forall₂_cons_right_iff] at h
    obtain ⟨e, l1, h1, h2, rfl⟩ := h
    have he : e.2.empty = (g e'.2).empty := h1.2.empty
    rw [List.filter_cons, he]
    cases hx : (g e'.2).empty with
    | true =>
      rw [List.filterMap_cons_none (by simp [hx])]
      exact ih h2
    | false =>
      rw [List.filterMap_cons_some (b := (e'.1, g e'.2)) (by simp [hx])]
      exact .cons h1 (ih h2)

theorem erase_rel {l : SpatialHash 3 ChunkedWaveletBlock} {l' : SpatialHash 3 WaveletBlock} (h : List.Forall₂ EntryRel l l')
    (p : Index 3 → Bool) :
    List.Forall₂ EntryRel (l.eraseBlockIf fun k b => (b, p k)) (l'.eraseBlockIf fun k b => (b, p k)) := by
  unfold SpatialHash.eraseBlockIf
  induction h with
  | nil => exact .nil
  | @cons e e' l l' h _ ih =>
    rw [List.filterMap_cons, List.filterMap_cons]
    dsimp only
    rw [h.1]
    cases p e'.1
    · exact .cons ⟨rfl, h.2⟩ ih
    · exact ih

/-- One operation. -/
theorem Rel.step {c : HashedChunkedWaveletOctree} {m : HashedWaveletOctree} (h : c.Rel m) (hm : m.Shaped) (o : HashedWaveletOp) :
    ∃ c', o.runChunked c = some c' ∧ c'.Rel (o.run m) := by
  have hok : ∀ e ∈ m.blocks, e.2.Shape m.config.treeHeight :=
    fun e he => hm.ok e.1 e.2 (SpatialHash.getBlock_of_mem hm.nodup he)
  cases o with
  | write w =>
    cases w with
    | add i u now =>
      refine ⟨_, rfl, h.config, ?_⟩
      have e : ∀ k, HashedChunkedWaveletOctree.nodeToCellIndex (c.getOrAllocateBlock k now) ⟨0, i⟩ = m.nodeToCellIndex ⟨0, i⟩ := by
        intro k; unfold nodeToCellIndex HashedWaveletOctree.nodeToCellIndex; exact congrArg (fun x : HashedWaveletOctreeConfig => (⟨0, fun i_1 => divExp2FloorRemainder (i i_1) ((x.treeHeight : Int) - 0).toNat⟩ : NdtreeIndex 3)) h.config
      show List.Forall₂ EntryRel ((c.getOrAllocateBlock (indexToBlockIndex c.config.treeHeight i) now).blocks.modifyBlock
        (indexToBlockIndex c.config.treeHeight i) fun b => b.addToCellValue
          ((c.getOrAllocateBlock (indexToBlockIndex c.config.treeHeight i) now).nodeToCellIndex ⟨0, i⟩) u now) _
      rw [e, h.config]
      exact modify_rel (h.alloc _ now).blocks _ (fun b => b.addToCellValue (m.nodeToCellIndex ⟨0, i⟩) u now)
        (fun b => b.addToCellValue (m.nodeToCellIndex ⟨0, i⟩) u now) fun x e he hx => hx.add (root_ok hm _ _ e he) _ _ _
    | set i v now =>
      refine ⟨_, rfl, h.config, ?_⟩
      have e : ∀ k, HashedChunkedWaveletOctree.nodeToCellIndex (c.getOrAllocateBlock k now) ⟨0, i⟩ = m.nodeToCellIndex ⟨0, i⟩ := by
        intro k; unfold nodeToCellIndex HashedWaveletOctree.nodeToCellIndex; exact congrArg (fun x : HashedWaveletOctreeConfig => (⟨0, fun i_1 => divExp2FloorRemainder (i i_1) ((x.treeHeight : Int) - 0).toNat⟩ : NdtreeIndex 3)) h.config
      show List.Forall₂ EntryRel ((c.getOrAllocateBlock (indexToBlockIndex c.config.treeHeight i) now).blocks.modifyBlock
        (indexToBlockIndex c.config.treeHeight i) fun b => b.setCellValue
          ((c.getOrAllocateBlock (indexToBlockIndex c.config.treeHeight i) now).nodeToCellIndex ⟨0, i⟩) v now) _
      rw [e, h.config]
      exact modify_rel (h.alloc _ now).blocks _ (fun b => b.setCellValue (m.nodeToCellIndex ⟨0, i⟩) v now)
        (fun b => b.setCellValue (m.nodeToCellIndex ⟨0, i⟩) v now) fun x e he hx => hx.set (root_ok hm _ _ e he) _ _ _
    | threshold =>
      obtain ⟨l1, h1, h2⟩ := mapM_rel h.blocks (fun b => b.threshold) (fun b => b.threshold)
        (fun x e he hx => hx.threshold (hok e he))
      refine ⟨⟨c.config, l1⟩, ?_, h.config, h2⟩
      show c.mapBlocksM _ = _
      unfold mapBlocksM; rw [h1]; rfl
    | clear => exact ⟨_, rfl, h.config, .nil⟩
  | prune =>
    obtain ⟨l1, h1, h2⟩ := mapM_rel h.blocks (fun b => b.prune) (fun b => b.prune)
      (fun x e he hx => hx.prune (hok e he))
    refine ⟨⟨c.config, l1.filter fun e => !e.2.empty⟩, ?_, h.config, drop_rel _ h2⟩
    show (c.mapBlocksM _).map _ = _
    unfold mapBlocksM; rw [h1]; rfl
  | pruneSmart now =>
    obtain ⟨l1, h1, h2⟩ := mapM_rel h.blocks
      (fun b => if c.config.onlyPruneBlocksIfUnusedFor < now - b.lastUpdated then b.prune else some b) (fun b => b.pruneIf m now)
      (fun x e he hx => by
        unfold WaveletBlock.pruneIf
        rw [hx.stamp, h.config]
        split
        · exact hx.prune (hok e he)
        · exact ⟨x, rfl, hx⟩)
    refine ⟨⟨c.config, l1.filter fun e => !e.2.empty⟩, ?_, h.config, drop_rel (fun b => b.pruneIf m now) h2⟩
    show (c.mapBlocksM _).map _ = _
    unfold mapBlocksM; rw [h1]; rfl
  | eraseBlocks p => exact ⟨_, rfl, h.config, erase_rel h.blocks p⟩

theorem Rel.run {c : HashedChunkedWaveletOctree} {m : HashedWaveletOctree} (h : c.Rel m) (hm : m.Inv) (ops : List HashedWaveletOp) :
    ∃ c', ops.foldlM HashedWaveletOp.runChunked c = some c' ∧ c'.Rel (ops.foldl HashedWaveletOp.run m) ∧
      (ops.foldl HashedWaveletOp.run m).Inv := by
  induction ops generalizing c m with
  | nil => exact ⟨c, rfl, h, hm⟩
  | cons o ops ih =>
    obtain ⟨c1, h1, h2⟩ := h.step hm.shaped o
    obtain ⟨c2, h3, h4⟩ := ih h2 (hm.run o)
    exact ⟨c2, by rw [List.foldlM_cons, h1]; exact h3, h4⟩

theorem run_rel {config : HashedWaveletOctreeConfig} (hc : config.isValidChunked = true) (ops : List HashedWaveletOp) :
    ∃ c, runChunkedMap config ops = some c ∧ c.Rel (runPlainMap config ops) ∧ (runPlainMap config ops).Inv := by
  simp only [HashedWaveletOctreeConfig.isValidChunked, Bool.and_eq_true, decide_eq_true_eq] at hc
  exact Rel.run (c := .create config) (m := .create config) ⟨rfl, .nil⟩
    (HashedWaveletOctree.Inv.create hc.1 (by have := hc.2; unfold maxSupportedTreeHeight at this; omega)) ops

/-! ## Leaves -/

/-- The plain block with a node wherever the chunked block has one. -/
def filledBlock (b : WaveletBlock) : WaveletBlock :=
  { b with root := WChunks.fill b.treeHeight 0 b.root, needsThresholding := true, needsPruning := true }

theorem filledBlock_ok {b : WaveletBlock} {H : Nat} {lo hi : ℚ} (hb : b.Ok H lo hi) (hH : 0 < H) : (filledBlock b).Ok H lo hi := by
  refine ⟨hb.height, hb.minOk, hb.maxOk, ?_, ?_, fun e => by simp [filledBlock] at e, fun e => by simp [filledBlock] at e⟩
  · unfold filledBlock
    rw [hb.height]
    obtain ⟨k, rfl⟩ : ∃ k, H = k + 1 := ⟨H - 1, by omega⟩
    exact WChunks.fill_ne_nil _ _ _
  · unfold filledBlock; rw [hb.height]; exact WChunks.fill_depth _ _ _

theorem filledBlock_val {b : WaveletBlock} {H : Nat} {lo hi : ℚ} (hb : b.Ok H lo hi) (j : Index 3) : (filledBlock b).val j = b.val j := by
  unfold WaveletBlock.val filledBlock
  exact WChunks.fill_getValue _ _ _ (by rw [hb.height]; exact hb.depth) _ _

theorem filledBlock_empty {b : WaveletBlock} {H : Nat} {lo hi : ℚ} (hb : b.Ok H lo hi) (hH : 0 < H) : (filledBlock b).empty = b.empty := by
  unfold WaveletBlock.empty filledBlock WTree.nodeEmpty
  dsimp only
  rw [hb.height]
  obtain ⟨k, rfl⟩ : ∃ k, H = k + 1 := ⟨H - 1, by omega⟩
  rw [WChunks.fill_details]
  have : (WChunks.fill (k + 1) 0 b.root).hasChildrenArray = b.root.hasChildrenArray := by
    rw [WChunks.fill]
    split
    · next h => rw [h]; rfl
    · next h => rw [Bool.not_eq_true] at h; rw [h]; rfl
  rw [this]

theorem block_leaves {c : ChunkedWaveletBlock} {b : WaveletBlock} (h : c.Rel b) {H : Nat} {lo hi : ℚ} (hb : b.Ok H lo hi) (hH : 0 < H)
    (k : Index 3) : c.forEachLeaf k 0 = some ((filledBlock b).forEachLeaf k 0) := by
  unfold ChunkedWaveletBlock.forEachLeaf WaveletBlock.forEachLeaf
  rw [h.empty, filledBlock_empty hb hH]
  by_cases he : b.empty = true
  · rw [if_pos he, if_pos he]
  · rw [if_neg he, if_neg he]
    obtain ⟨k', rfl⟩ : ∃ k, H = k + 1 := ⟨H - 1, by omega⟩
    have hh : c.treeHeight = k' + 1 := by rw [h.height, hb.height]
    have := WChunks.leaves_spec (fun h => decide (0 < h)) (by simp) (c.fuel + 1) k' c.chunks [] b.root ⟨c.treeHeight, k⟩ c.rootScale
      (by unfold ChunkedWaveletBlock.fuel; omega) (by simp only [hh]; omega) h.tree
    rw [ChunkedWaveletBlock.root_eq, this, h.height, h.scale, ← hb.height]
    rfl

/-- The plain map with filled blocks. -/
def filledMap (m : HashedWaveletOctree) : HashedWaveletOctree := { m with blocks := m.blocks.mapBlocks fun _ b => filledBlock b }

theorem filledMap_inv {m : HashedWaveletOctree} (h : m.Inv) : (filledMap m).Inv := by
  refine ⟨h.pos, h.le, h.bounds, ?_, ?_⟩
  · unfold filledMap; dsimp only; rw [SpatialHash.keys_mapBlocks]; exact h.nodup
  · intro k b hk
    unfold filledMap at hk ⊢
    dsimp only at hk ⊢
    rw [SpatialHash.getBlock_mapBlocks] at hk
    cases e : m.blocks.getBlock k with
    | none => rw [e] at hk; cases hk
    | some b' =>
      rw [e] at hk
      injection hk with hk
      subst hk
      exact filledBlock_ok (h.ok k b' e) h.pos

theorem filledMap_get {m : HashedWaveletOctree} (h : m.Inv) (k : Index 3) :
    (filledMap m).blocks.getBlock k = (m.blocks.getBlock k).map filledBlock :=
  SpatialHash.getBlock_mapBlocks m.blocks k fun _ b => filledBlock b

theorem filledMap_value {m : HashedWaveletOctree} (h : m.Inv) (j : Index 3) : (filledMap m).getCellValue j = m.getCellValue j := by
  rw [HashedWaveletOctree.getCellValue_eq h, HashedWaveletOctree.getCellValue_eq (filledMap_inv h)]
  have : (filledMap m).config = m.config := rfl
  rw [this, filledMap_get h]
  cases e : m.blocks.getBlock (indexToBlockIndex m.config.treeHeight j) with
  | none => rfl
  | some b => exact filledBlock_val (h.ok _ _ e) j

theorem Rel.leaves {c : HashedChunkedWaveletOctree} {m : HashedWaveletOctree} (h : c.Rel m) (hm : m.Inv) :
    c.forEachLeaf = some (filledMap m).forEachLeaf := by
  have hok : ∀ e ∈ m.blocks, e.2.Ok m.config.treeHeight m.config.minLogOdds m.config.maxLogOdds :=
    fun e he => hm.ok e.1 e.2 (SpatialHash.getBlock_of_mem hm.nodup he)
  have key : ∀ {l : SpatialHash 3 ChunkedWaveletBlock} {l' : SpatialHash 3 WaveletBlock}, List.Forall₂ EntryRel l l' →
      (∀ e ∈ l', e.2.Ok m.config.treeHeight m.config.minLogOdds m.config.maxLogOdds) →
      (l.mapM fun (e : Index 3 × ChunkedWaveletBlock) => e.2.forEachLeaf e.1 0)
        = some (l'.map fun e => (filledBlock e.2).forEachLeaf e.1 0) := by
    intro l l' hl hl'
    induction hl with
    | nil => rfl
    | @cons e e' l l' h1 _ ih =>
      rw [List.mapM_cons, ih fun e he => hl' e (List.mem_cons_of_mem _ he),
        block_leaves h1.2 (hl' e' List.mem_cons_self) hm.pos, h1.1]
      rfl
  unfold forEachLeaf
  rw [key h.blocks hok]
  unfold HashedWaveletOctree.forEachLeaf filledMap SpatialHash.mapBlocks
  rw [List.flatMap_def, List.map_map]
  rfl

end HashedChunkedWaveletOctree

/-! ## Properties -/

/-- C19: after any sequence of set, add, threshold, clear, prune and pruneSmart calls, applied to both maps, the chunked
map has not failed, and the two maps return the same value for every cell and for every coarser node; they also
hold the same blocks, which gives the same bounds. -/
theorem C19_chunked_refines_hashed (config : HashedWaveletOctreeConfig) (hc : config.isValidChunked = true)
    (ops : List HashedWaveletOp) :
    ∃ c, runChunkedMap config ops = some c ∧
      (∀ i : Index 3, c.getCellValue i = (runPlainMap config ops).getCellValue i) ∧
      (∀ n : NdtreeIndex 3, c.getNodeValue n = (runPlainMap config ops).getNodeValue n) ∧
      c.blocks.keys = (runPlainMap config ops).blocks.keys ∧
      c.getMinIndex = (runPlainMap config ops).getMinIndex ∧ c.getMaxIndex = (runPlainMap config ops).getMaxIndex := by
  obtain ⟨c, h1, h2, -⟩ := HashedChunkedWaveletOctree.run_rel hc ops
  have hk := HashedChunkedWaveletOctree.blocks_keys h2.blocks
  have key : ∀ (l : SpatialHash 3 ChunkedWaveletBlock) (l' : SpatialHash 3 WaveletBlock), l.keys = l'.keys →
      l.isEmpty = l'.isEmpty ∧ l.getMinBlockIndex = l'.getMinBlockIndex ∧ l.getMaxBlockIndex = l'.getMaxBlockIndex := by
    intro l l' hl
    have he : l.isEmpty = l'.isEmpty := by
      cases l <;> cases l' <;> simp [SpatialHash.keys] at hl ⊢
    have hfold : ∀ {β : Type} (x : SpatialHash 3 β) (f : Index 3 → Index 3 → Index 3) (a : Index 3),
        x.foldl (fun acc e => f acc e.1) a = x.keys.foldl f a := by
      intro β x f a
      unfold SpatialHash.keys; rw [List.foldl_map]
    refine ⟨he, ?_, ?_⟩
    · unfold SpatialHash.getMinBlockIndex
      rw [he]
      split
      · rfl
      · rw [hfold l (fun acc e i => min (acc i) (e i)), hfold l' (fun acc e i => min (acc i) (e i)), hl]
    · unfold SpatialHash.getMaxBlockIndex
      rw [he]
      split
      · rfl
      · rw [hfold l (fun acc e i => max (acc i) (e i)), hfold l' (fun acc e i => max (acc i) (e i)), hl]
  obtain ⟨e1, e2, e3⟩ := key _ _ hk
  refine ⟨c, h1, h2.get, h2.getNode, hk, ?_, ?_⟩
  · unfold HashedChunkedWaveletOctree.getMinIndex HashedWaveletOctree.getMinIndex
    rw [e2, h2.config]
  · unfold HashedChunkedWaveletOctree.getMaxIndex HashedWaveletOctree.getMaxIndex
    rw [e1, e3, h2.config]

/-- A history that uses every operation, on a map with two levels of chunks. -/
def exampleHistory : List HashedWaveletOp :=
  [.write (.add (fun _ => 1) 3 0), .write (.set (fun _ => -20) 5 1), .write .threshold, .prune, .pruneSmart 10,
    .write (.add ![1, 2, 3] (1 / 2) 2)]

example : HashedWaveletOctreeConfig.isValidChunked ⟨1, -2, 4, 5, 5⟩ = true ∧
    (runPlainMap ⟨1, -2, 4, 5, 5⟩ exampleHistory).getCellValue (fun _ => -20) = 4 ∧
    (runPlainMap ⟨1, -2, 4, 5, 5⟩ exampleHistory).getCellValue ![1, 2, 3] = 1 / 2 := by
  refine ⟨by decide +kernel, by decide +kernel, by decide +kernel⟩

/-- C23 for the chunked map: after any history the enumeration of leaves succeeds; every cell of a non-empty allocated
block lies in exactly one reported leaf and is reported with the value a point query returns, and no cell lies in two
leaves or in a leaf outside the allocated blocks. -/
theorem C23_chunked_wavelet_leaves (config : HashedWaveletOctreeConfig) (hc : config.isValidChunked = true)
    (ops : List HashedWaveletOp) (c : HashedChunkedWaveletOctree) (hrun : runChunkedMap config ops = some c) :
    ∃ leaves, c.forEachLeaf = some leaves ∧ ∀ j : Index 3,
      ((∃ k b, InBlock config.treeHeight k j ∧ c.blocks.getBlock k = some b ∧ b.empty = false) →
        ∃ n : NdtreeIndex 3, NodeRegion n j ∧ 0 ≤ n.height ∧ n.height < config.treeHeight ∧
          leaves.filter (fun e => decide (NodeRegion e.1 j)) = [(n, c.getCellValue j)]) ∧
      (leaves.filter (fun e => decide (NodeRegion e.1 j))).length ≤ 1 ∧
      ((∃ e ∈ leaves, NodeRegion e.1 j) → ∃ k b, InBlock config.treeHeight k j ∧ c.blocks.getBlock k = some b) := by
  obtain ⟨c', h1, h2, h3⟩ := HashedChunkedWaveletOctree.run_rel hc ops
  rw [hrun] at h1
  obtain rfl := Option.some.inj h1
  have hcfg : (runPlainMap config ops).config = config := by
    unfold runPlainMap
    have : ∀ m : HashedWaveletOctree, (ops.foldl HashedWaveletOp.run m).config = m.config := by
      clear hrun h1 h2 h3
      induction ops with
      | nil => intro m; rfl
      | cons o ops ih => intro m; rw [List.foldl_cons, ih, HashedWaveletOctree.run_config]
    exact this _
  have hinv := HashedChunkedWaveletOctree.filledMap_inv h3
  have hfc : (HashedChunkedWaveletOctree.filledMap (runPlainMap config ops)).config = config := hcfg
  refine ⟨_, h2.leaves h3, fun j => ⟨?_, (hinv.leaves_disjoint j).1, ?_⟩⟩
  · rintro ⟨k, b, hk, hb, he⟩
    rcases HashedChunkedWaveletOctree.blocks_get h2.blocks k with ⟨h4, -⟩ | ⟨x, b', h4, h5, h6⟩
    · rw [hb] at h4; cases h4
    · rw [hb] at h4
      obtain rfl := Option.some.inj h4
      have hb' := h3.ok _ _ h5
      have := hinv.leaves j ⟨k, HashedChunkedWaveletOctree.filledBlock b', by rw [hfc]; exact hk,
        by rw [HashedChunkedWaveletOctree.filledMap_get h3, h5]; rfl,
        by rw [HashedChunkedWaveletOctree.filledBlock_empty hb' h3.pos, ← h6.empty]; exact he⟩
      rw [hfc, HashedChunkedWaveletOctree.filledMap_value h3, ← h2.get] at this
      exact this
  · intro he
    have := (hinv.leaves_disjoint j).2 he
    obtain ⟨k, hk, hs⟩ := this
    rw [hfc] at hk
    rw [HashedChunkedWaveletOctree.filledMap_get h3] at hs
    rcases HashedChunkedWaveletOctree.blocks_get h2.blocks k with ⟨-, h5⟩ | ⟨x, b', h4, -, -⟩
    · rw [h5] at hs; cases hs
    · exact ⟨k, x, hk, h4⟩

/-- Finding: the two enumerations are not the same list. Where the chunked octree shares a chunk between siblings it reports
finer leaves. Here one cell of an empty block of height 3 was written; the plain map reports 7 + 7 + 8 leaves, the chunked
map 7 * 8 nodes and 8 * 8 cells. -/
theorem C19_leaf_lists_fails :
    let ops : List HashedWaveletOp := [.write (.add (fun _ => 0) 1 0)]
    (runPlainMap ⟨1, -2, 4, 3, 5⟩ ops).forEachLeaf.length = 22 ∧
      ((runChunkedMap ⟨1, -2, 4, 3, 5⟩ ops).bind fun c => c.forEachLeaf.map List.length) = some 120 := by
  refine ⟨by decide +kernel, by decide +kernel⟩

/-- The history of the example above makes a map, and its leaves can be enumerated. -/
example : ∃ c leaves, runChunkedMap ⟨1, -2, 4, 5, 5⟩ exampleHistory = some c ∧ c.forEachLeaf = some leaves ∧
    ∀ j : Index 3, (leaves.filter (fun e => decide (NodeRegion e.1 j))).length ≤ 1 := by
  obtain ⟨c, h, -⟩ := HashedChunkedWaveletOctree.run_rel (config := ⟨1, -2, 4, 5, 5⟩) (by decide +kernel) exampleHistory
  obtain ⟨leaves, h1, h2⟩ := C23_chunked_wavelet_leaves ⟨1, -2, 4, 5, 5⟩ (by decide +kernel) exampleHistory c h
  exact ⟨c, leaves, h, h1, fun j => (h2 j).2.1⟩

end Wavemap
