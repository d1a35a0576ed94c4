import Verif.Props.WaveletIntegrator
import Verif.Props.ChunkedWavelet
import Verif.Lemmas.ChunkedIntegrator
/-!
# C44: integrating a measurement into a hashed chunked wavelet octree

The specification works on the values that the map's own queries return, as in `Verif.Props.WaveletIntegrator`.
-/
namespace Wavemap
open Haar NTree NdtreeIndex

/-! ## Specification -/

/-- The operation on the modelled chunked map. -/
def MappingOp.runChunked (m : HashedChunkedWaveletOctree) : MappingOp → Option HashedChunkedWaveletOctree
  | .op o => o.runChunked m
  | .integrate scan schedule now stamp => m.updateMap scan schedule now stamp

namespace HashedChunkedWaveletOctree

/-- A map that results from any sequence of operations and measurements. -/
def Mapped (m : HashedChunkedWaveletOctree) : Prop :=
  ∃ config : HashedWaveletOctreeConfig, config.isValidChunked = true ∧ 2 ≤ config.treeHeight ∧
    ∃ ops : List MappingOp, (∀ o ∈ ops, o.Valid) ∧ ops.foldlM MappingOp.runChunked (create config) = some m

/-- The cell's block is allocated. -/
def Allocated (m : HashedChunkedWaveletOctree) (j : Index 3) : Prop :=
  ∃ b, InBlock m.config.treeHeight b j ∧ (m.blocks.getBlock b).isSome = true

/-- Nodes of height `k` are updated in one batch with their siblings: they are at most as large as the finest update resolution, and
they are not the children of a block's root. -/
def Batched (m : HashedChunkedWaveletOctree) (scan : Scan) (k : Nat) : Prop :=
  (k : Int) ≤ scan.terminationHeight m.config.minCellWidth ∧ k + 2 ≤ m.config.treeHeight

instance (m : HashedChunkedWaveletOctree) (scan : Scan) (k : Nat) : Decidable (m.Batched scan k) := by
  unfold Batched; infer_instance

/-- The integrator does not treat the node of height `k` around cell `j` as a whole: it is not updated in a batch, it is
at least partly observed, a free-space update could still lower it, and the error of one update for the whole node is too large. -/
def Refines (m : HashedChunkedWaveletOctree) (scan : Scan) (j : Index 3) (k : Nat) : Prop :=
  let n := indexAndHeightToNodeIndex j k
  ¬ m.Batched scan k ∧ scan.updateType n ≠ .fullyUnobserved ∧
    (scan.updateType n = .possiblyOccupied ∨ m.config.minLogOdds + 1 / 1000 ≤ m.getNodeValue n) ∧
    scan.coarseEnough (scan.updateType n) n = false

/-- The largest node inside the block, around cell `j`, that is treated as a whole has height `s`. -/
def StopsAt (m : HashedChunkedWaveletOctree) (scan : Scan) (j : Index 3) (s : Nat) : Prop :=
  s < m.config.treeHeight ∧ (∀ k, s < k → k < m.config.treeHeight → m.Refines scan j k) ∧ ¬ m.Refines scan j s

/-- The node of height `s` around `j` is skipped: it is not observed, or the update is for free space and the node is already free. -/
def Skipped (m : HashedChunkedWaveletOctree) (scan : Scan) (j : Index 3) (s : Nat) : Prop :=
  let n := indexAndHeightToNodeIndex j s
  ¬ m.Batched scan s ∧ (scan.updateType n = .fullyUnobserved ∨
    (scan.updateType n ≠ .possiblyOccupied ∧ m.getNodeValue n < m.config.minLogOdds + 1 / 1000))

instance (m : HashedChunkedWaveletOctree) (scan : Scan) (j : Index 3) (s : Nat) : Decidable (m.Skipped scan j s) := by
  unfold Skipped; infer_instance

/-- What is added to all cells of the node of height `s` around `j`, if it is treated as a whole: the measurement model's update
at the node's center; for nodes updated in batches the node's new mean is clamped. -/
def ScanChange (m : HashedChunkedWaveletOctree) (scan : Scan) (j : Index 3) (s : Nat) : ℚ :=
  let n := indexAndHeightToNodeIndex j s
  let v := m.getNodeValue n
  if m.Skipped scan j s then 0
  else if m.Batched scan s then
    clamp (m.config.minLogOdds - 1 / 1000) (m.config.maxLogOdds + 1 / 1000) (scan.sample n + v) - v
  else scan.sample n

/-- The block of cell `j` is updated: the part of the map that is searched includes it, none of the nodes around the
block is entirely unobserved, and the block may see occupied space or exists and is not entirely free. -/
def Selected (m : HashedChunkedWaveletOctree) (scan : Scan) (j : Index 3) : Prop :=
  let fov := m.config.fovMinMax scan
  (∀ i, fov.2.1 i ≤ (indexAndHeightToNodeIndex j fov.1).position i ∧ (indexAndHeightToNodeIndex j fov.1).position i ≤ fov.2.2 i) ∧
  (∀ h, m.config.treeHeight ≤ h → h ≤ fov.1 → scan.updateType (indexAndHeightToNodeIndex j h) ≠ .fullyUnobserved) ∧
  (scan.updateType (indexAndHeightToNodeIndex j m.config.treeHeight) = .possiblyOccupied ∨
    (m.Allocated j ∧ m.config.minLogOdds + 1 / 1000 ≤ m.getNodeValue (indexAndHeightToNodeIndex j m.config.treeHeight)))

/-! ## Simulation by a plain map -/

variable {c : HashedChunkedWaveletOctree} {m : HashedWaveletOctree} {scan : Scan}

theorem allocated_iff (c : HashedChunkedWaveletOctree) (j : Index 3) :
    c.Allocated j ↔ (c.blocks.getBlock (indexToBlockIndex c.config.treeHeight j)).isSome = true := by
  unfold Allocated
  constructor
  · rintro ⟨b, hb, hs⟩
    rw [inBlock_iff] at hb; rw [hb]; exact hs
  · intro h; exact ⟨_, (inBlock_iff _ _).2 rfl, h⟩

theorem _root_.Wavemap.HashedWaveletOctree.Sound.shaped (h : m.Sound) : m.Shaped :=
  ⟨h.pos, h.nodup, fun k b hb => ⟨(h.fits k b hb).height, (h.fits k b hb).root, (h.fits k b hb).depth⟩⟩

end HashedChunkedWaveletOctree

/-- The update of a block. -/
theorem ChunkedWaveletBlock.Rel.update {c : ChunkedWaveletBlock} {b : WaveletBlock} (h : c.Rel b) {scan : Scan} {config : HashedWaveletOctreeConfig}
    (hb : b.Fits config.treeHeight config.minLogOdds config.maxLogOdds) (hw : 0 < config.minCellWidth) (hH : 2 ≤ config.treeHeight)
    (k : Index 3) (now : ℚ) : ∃ c', c.update scan config k now = some c' ∧ c'.Rel (b.updatedChunked scan config k now) := by
  obtain ⟨s', h1, h2, -⟩ := WChunks.updateNode_spec (scan := scan) (lo := config.minLogOdds) (hi := config.maxLogOdds)
    (T := scan.terminationHeight config.minCellWidth) (H := config.treeHeight) (scan.terminationHeight_nonneg _ hw) hH c.fuel config.treeHeight [] ⟨config.treeHeight, k⟩ (by omega)
    (by unfold ChunkedWaveletBlock.fuel; rw [h.height, hb.height]; omega) rfl (le_refl _) (Or.inl rfl) c.chunks b.root hb.root h.tree (h.live hb.root) b.rootScale b.needsThresholding
  unfold ChunkedWaveletBlock.update
  rw [ChunkedWaveletBlock.root_eq, h.scale, h.thr, h1]
  exact ⟨_, rfl, h.height, h.lo, h.hi, rfl, rfl, rfl, rfl, h2⟩

namespace HashedChunkedWaveletOctree
variable {c : HashedChunkedWaveletOctree} {m : HashedWaveletOctree} {scan : Scan}

theorem Rel.alloc_fold (now : ℚ) (jobs : List (Index 3)) : ∀ (c : HashedChunkedWaveletOctree) (m : HashedWaveletOctree), c.Rel m →
    (jobs.foldl (fun c k => c.getOrAllocateBlock k now) c).Rel (jobs.foldl (fun m k => m.getOrAllocateBlock k now) m) ∧
    ∀ k, (jobs.foldl (fun c k => c.getOrAllocateBlock k now) c).blocks.getBlock k =
      if k ∈ jobs then some ((c.blocks.getBlock k).getD (.create c.config.treeHeight c.config.minLogOdds c.config.maxLogOdds now))
      else c.blocks.getBlock k := by
  induction jobs with
  | nil => intro c m h; exact ⟨h, fun k => by simp⟩
  | cons a jobs ih =>
    intro c m h
    rw [List.foldl_cons, List.foldl_cons]
    obtain ⟨h1, h2⟩ := ih _ _ (h.alloc a now)
    refine ⟨h1, fun k => ?_⟩
    rw [h2]
    have hg : (c.getOrAllocateBlock a now).blocks.getBlock k = if k = a then
        some ((c.blocks.getBlock a).getD (.create c.config.treeHeight c.config.minLogOdds c.config.maxLogOdds now)) else c.blocks.getBlock k :=
      SpatialHash.getBlock_getOrAllocate _ _ _ _
    have hcfg : (c.getOrAllocateBlock a now).config = c.config := rfl
    rw [hg, hcfg]
    by_cases hka : k = a
    · subst hka; simp
    · simp [hka]

theorem Rel.task_fold {config : HashedWaveletOctreeConfig} (hw : 0 < config.minCellWidth) (hH : 2 ≤ config.treeHeight) (stamp : Index 3 → ℚ)
    (l : List (Index 3)) : l.Nodup → ∀ (c : HashedChunkedWaveletOctree) (m : HashedWaveletOctree), c.Rel m → m.config = config →
    (∀ k ∈ l, ∃ b, m.blocks.getBlock k = some b ∧ b.Fits config.treeHeight config.minLogOdds config.maxLogOdds) →
    ∃ (c' : HashedChunkedWaveletOctree) (m' : HashedWaveletOctree), l.foldlM (updateTask scan stamp) c = some c' ∧ c'.Rel m' ∧ m'.config = config ∧ m'.blocks.keys = m.blocks.keys ∧
      (∀ k, m'.blocks.getBlock k = if k ∈ l then (m.blocks.getBlock k).map fun b => b.updatedChunked scan config k (stamp k) else m.blocks.getBlock k) ∧
      ∀ k, c'.blocks.getBlock k = if k ∈ l then (c.blocks.getBlock k).bind fun b => b.update scan config k (stamp k) else c.blocks.getBlock k := by
  induction l with
  | nil => intro _ c m h hm _; exact ⟨c, m, rfl, h, hm, rfl, fun k => by simp, fun k => by simp⟩
  | cons a l ih =>
    intro hl c m h hm hb
    rw [List.nodup_cons] at hl
    obtain ⟨b, hba, hr⟩ := hb a (List.mem_cons_self ..)
    rcases blocks_get h.blocks a with ⟨-, e⟩ | ⟨x, b', hx, hb', hrel⟩
    · rw [hba] at e; cases e
    rw [hba] at hb'
    injection hb' with hb'
    subst hb'
    obtain ⟨x', hu, hrel'⟩ := hrel.update (scan := scan) hr hw hH a (stamp a)
    have hstep : updateTask scan stamp c a = some { c with blocks := c.blocks.modifyBlock a fun _ => x' } := by
      unfold updateTask
      rw [hx]
      dsimp only
      rw [h.config, hm, hu]
      rfl
    have hgm : ∀ k, (m.blocks.modifyBlock a fun _ => b.updatedChunked scan config a (stamp a)).getBlock k =
        if k = a then some (b.updatedChunked scan config a (stamp a)) else m.blocks.getBlock k := by
      intro k
      rw [SpatialHash.getBlock_modify, hba]
      rfl
    have hgc : ∀ k, (c.blocks.modifyBlock a fun _ => x').getBlock k = if k = a then some x' else c.blocks.getBlock k := by
      intro k
      rw [SpatialHash.getBlock_modify, hx]
      rfl
    obtain ⟨c', m', h1, h2, h3, h4, h5, h6⟩ := ih hl.2 { c with blocks := c.blocks.modifyBlock a fun _ => x' }
      { m with blocks := m.blocks.modifyBlock a fun _ => b.updatedChunked scan config a (stamp a) }
      ⟨h.config, modify_rel h.blocks a (fun _ => x') (fun _ => b.updatedChunked scan config a (stamp a)) fun _ _ _ _ => hrel'⟩ hm (by
      intro k hk
      dsimp only
      rw [hgm]
      split
      · exact ⟨_, rfl, hr.updatedChunked hw hH _ _⟩
      · exact hb k (List.mem_cons_of_mem _ hk))
    refine ⟨c', m', ?_, h2, h3, ?_, fun k => ?_, fun k => ?_⟩
    · rw [List.foldlM_cons, hstep]; exact h1
    · rw [h4]
      show (m.blocks.modifyBlock a fun _ => b.updatedChunked scan config a (stamp a)).keys = _
      exact SpatialHash.keys_modify _ _ _
    · rw [h5]
      dsimp only
      rw [hgm]
      by_cases hka : k = a
      · subst hka; simp [hl.1, hba]
      · simp [hka]
    · rw [h6]
      dsimp only
      rw [hgc]
      by_cases hka : k = a
      · subst hka; simp [hl.1, hx, hu]
      · simp [hka]

theorem worthUpdating_iff (c : HashedChunkedWaveletOctree) (k : Index 3) : c.worthUpdating k = true ↔
    ∃ b, c.blocks.getBlock k = some b ∧ c.config.minLogOdds + chunkedNoise ≤ b.rootScale := by
  unfold worthUpdating
  cases c.blocks.getBlock k <;> simp

theorem Rel.allocated (h : c.Rel m) (j : Index 3) : c.Allocated j ↔ m.Allocated j := by
  rw [allocated_iff, HashedWaveletOctree.allocated_iff, h.config]
  rcases blocks_get h.blocks (indexToBlockIndex m.config.treeHeight j) with ⟨h1, h2⟩ | ⟨x, b, h1, h2, -⟩
  · rw [h1, h2]; simp
  · rw [h1, h2]; simp

theorem Rel.selected_iff (h : c.Rel m) (hs : m.Sound) (j : Index 3) :
    c.Selected scan j ↔
      (∀ i, (c.config.fovMinMax scan).2.1 i ≤ (indexAndHeightToNodeIndex j (c.config.fovMinMax scan).1).position i ∧
        (indexAndHeightToNodeIndex j (c.config.fovMinMax scan).1).position i ≤ (c.config.fovMinMax scan).2.2 i) ∧
      (∀ h, c.config.treeHeight ≤ h → h ≤ (c.config.fovMinMax scan).1 → scan.updateType (indexAndHeightToNodeIndex j h) ≠ .fullyUnobserved) ∧
      (scan.updateType (indexAndHeightToNodeIndex j c.config.treeHeight) = .possiblyOccupied ∨
        c.worthUpdating (indexToBlockIndex c.config.treeHeight j) = true) := by
  unfold Selected
  dsimp only
  rw [worthUpdating_iff, h.allocated, h.getNode, HashedWaveletOctree.allocated_iff]
  have hn := HashedWaveletOctree.node_value hs.le hs.heights j _ (le_refl _)
  rw [← h.config, Nat.sub_self, List.take_zero] at hn
  rw [hn, ← h.config]
  rcases blocks_get h.blocks (indexToBlockIndex c.config.treeHeight j) with ⟨h1, h2⟩ | ⟨x, b, h1, h2, h3⟩
  · rw [h1, h2]; simp
  · rw [h1, h2]
    dsimp only
    rw [WTree.getValue_nil_path]
    simp [h3.scale, chunkedNoise]

/-- The whole update: which blocks change, and to what. -/
theorem Rel.updateMap (h : c.Rel m) (hm : m.Sound) (hH : 2 ≤ m.config.treeHeight) (hr : 0 ≤ scan.maxRange)
    (schedule : List (Index 3) → List (Index 3)) (hs : ∀ l, (schedule l).Perm l) (now : ℚ) (stamp : Index 3 → ℚ) :
    ∃ (c' : HashedChunkedWaveletOctree) (m' : HashedWaveletOctree) (jobs : List (Index 3)), c.updateMap scan schedule now stamp = some c' ∧ c'.Rel m' ∧ m'.Sound ∧
      m'.config = m.config ∧ (∀ j, indexToBlockIndex c.config.treeHeight j ∈ jobs ↔ c.Selected scan j) ∧
      (∀ k, m'.blocks.getBlock k = if k ∈ jobs then
        some (((m.blocks.getBlock k).getD (.create m.config.treeHeight m.config.minLogOdds m.config.maxLogOdds now)).updatedChunked scan m.config k (stamp k))
        else m.blocks.getBlock k) ∧
      ∀ k, c'.blocks.getBlock k = if k ∈ jobs then
        ((c.blocks.getBlock k).getD (.create c.config.treeHeight c.config.minLogOdds c.config.maxLogOdds now)).update scan c.config k (stamp k)
        else c.blocks.getBlock k := by
  have hwc : 0 < c.config.minCellWidth := by rw [h.config]; exact hm.width
  obtain ⟨jobs, hj, hnd, hmem⟩ := blockJobs_spec (scan := scan) hwc hr c.worthUpdating
  obtain ⟨a1, a2, a3⟩ := HashedWaveletOctree.alloc_fold now jobs m
  obtain ⟨r1, r2⟩ := Rel.alloc_fold now jobs c m h
  obtain ⟨c', m', h1, h2, h3, h4, h5, h6⟩ := Rel.task_fold (scan := scan) hm.width hH stamp (schedule jobs) ((hs jobs).nodup_iff.2 hnd)
    _ _ r1 a1 (by
      intro k hk
      rw [a3, if_pos ((hs jobs).mem_iff.1 hk)]
      exact ⟨_, rfl, hm.getD k now⟩)
  have hget : ∀ k, m'.blocks.getBlock k = if k ∈ jobs then
        some (((m.blocks.getBlock k).getD (.create m.config.treeHeight m.config.minLogOdds m.config.maxLogOdds now)).updatedChunked scan m.config k (stamp k))
        else m.blocks.getBlock k := by
    intro k
    rw [h5, a3]
    by_cases hk : k ∈ jobs
    · rw [if_pos ((hs jobs).mem_iff.2 hk), if_pos hk, if_pos hk]; rfl
    · rw [if_neg (fun e => hk ((hs jobs).mem_iff.1 e)), if_neg hk, if_neg hk]
  refine ⟨c', m', jobs, ?_, h2, ?_, h3, fun j => ?_, hget, fun k => ?_⟩
  · unfold HashedChunkedWaveletOctree.updateMap
    have : c.blocksToUpdate scan = some jobs := hj
    rw [this]
    exact h1
  · refine ⟨by rw [h3]; exact hm.width, by rw [h3]; exact hm.pos, by rw [h3]; exact hm.le, by rw [h3]; exact hm.bounds, by rw [h4]; exact a2 hm.nodup, ?_⟩
    intro k b hb
    rw [hget] at hb
    rw [h3]
    split at hb
    · injection hb with hb
      subst hb
      exact (hm.getD k now).updatedChunked hm.width hH k _
    · exact hm.fits k b hb
  · rw [hmem, h.selected_iff hm]
  · rw [h6, r2]
    by_cases hk : k ∈ jobs
    · rw [if_pos ((hs jobs).mem_iff.2 hk), if_pos hk, if_pos hk, h.config]; rfl
    · rw [if_neg (fun e => hk ((hs jobs).mem_iff.1 e)), if_neg hk, if_neg hk]

theorem Rel.mapping_step (h : c.Rel m) (hm : m.Sound) (hH : 2 ≤ m.config.treeHeight) (o : MappingOp) (ho : o.Valid) :
    ∃ (c' : HashedChunkedWaveletOctree) (m' : HashedWaveletOctree), o.runChunked c = some c' ∧ c'.Rel m' ∧ m'.Sound ∧ m'.config = m.config := by
  cases o with
  | op o =>
    obtain ⟨c', h1, h2⟩ := h.step hm.shaped o
    exact ⟨c', _, h1, h2, hm.run o, HashedWaveletOctree.run_config m o⟩
  | integrate scan schedule now stamp =>
    obtain ⟨c', m', _, h1, h2, h3, h4, _⟩ := h.updateMap hm hH ho.1 schedule ho.2 now stamp
    exact ⟨c', m', h1, h2, h3, h4⟩

theorem Rel.mapping_steps (ops : List MappingOp) (ho : ∀ o ∈ ops, o.Valid) : ∀ (c : HashedChunkedWaveletOctree) (m : HashedWaveletOctree), c.Rel m → m.Sound →
    2 ≤ m.config.treeHeight →
    ∃ (c' : HashedChunkedWaveletOctree) (m' : HashedWaveletOctree), ops.foldlM MappingOp.runChunked c = some c' ∧ c'.Rel m' ∧ m'.Sound ∧ m'.config = m.config := by
  induction ops with
  | nil => intro c m h hm _; exact ⟨c, m, rfl, h, hm, rfl⟩
  | cons o ops ih =>
    intro c m h hm hH
    obtain ⟨c1, m1, h1, h2, h3, h4⟩ := h.mapping_step hm hH o (ho o (List.mem_cons_self ..))
    obtain ⟨c2, m2, h5, h6, h7, h8⟩ := ih (fun o ho' => ho o (List.mem_cons_of_mem _ ho')) c1 m1 h2 h3 (by rw [h4]; exact hH)
    exact ⟨c2, m2, by rw [List.foldlM_cons, h1]; exact h5, h6, h7, by rw [h8, h4]⟩

theorem create_sound {config : HashedWaveletOctreeConfig} (hc : config.isValidChunked = true) : (HashedWaveletOctree.create config).Sound := by
  simp only [HashedWaveletOctreeConfig.isValidChunked, Bool.and_eq_true, decide_eq_true_eq] at hc
  exact .create hc.1 (by have := hc.2; unfold maxSupportedTreeHeight at this; omega)

theorem Mapped.shadow (h : c.Mapped) : ∃ m : HashedWaveletOctree, c.Rel m ∧ m.Sound ∧ 2 ≤ m.config.treeHeight := by
  obtain ⟨config, hc, hH, ops, ho, hm⟩ := h
  obtain ⟨c', m', h1, h2, h3, h4⟩ := Rel.mapping_steps ops ho (create config) (.create config) ⟨rfl, .nil⟩ (create_sound hc) hH
  rw [hm] at h1
  injection h1 with h1
  subst h1
  exact ⟨m', h2, h3, by rw [h4]; exact hH⟩

/-! ## The values -/

theorem action_refine {lo hi : ℚ} {T : Int} {H : Nat} (node : WTree) (n : NdtreeIndex 3) (v : ℚ) :
    chunkedAction scan lo hi T H node n v = .refine ↔ ¬ (n.height ≤ T ∧ n.height + 2 ≤ H) ∧ scan.updateType n ≠ .fullyUnobserved ∧
      (scan.updateType n = .possiblyOccupied ∨ lo + chunkedNoise ≤ v) ∧ scan.coarseEnough (scan.updateType n) n = false := by
  unfold chunkedAction
  by_cases h1 : n.height ≤ T ∧ n.height + 2 ≤ H
  · rw [if_pos h1]; simp [h1]
  · rw [if_neg h1]
    by_cases h2 : scan.updateType n = .fullyUnobserved
    · rw [if_pos h2]; simp [h2]
    · rw [if_neg h2]
      by_cases h3 : scan.updateType n ≠ .possiblyOccupied ∧ v < lo + chunkedNoise
      · rw [if_pos h3]
        simp only [reduceCtorEq, false_iff]
        rintro ⟨_, _, h, _⟩
        rcases h with h | h
        · exact h3.1 h
        · linarith [h3.2]
      · rw [if_neg h3]
        have h3' : scan.updateType n = .possiblyOccupied ∨ lo + chunkedNoise ≤ v := by
          by_contra hc
          rw [not_or, not_le] at hc
          exact h3 hc
        by_cases h4 : scan.coarseEnough (scan.updateType n) n = true
        · rw [if_pos h4]; simp [h4]
        · rw [if_neg h4]
          simp only [true_iff]
          exact ⟨h1, h2, h3', by simpa using h4⟩

theorem action_stop {lo hi : ℚ} {T : Int} {H : Nat} (hlo : lo ≤ hi) (node : WTree) (n : NdtreeIndex 3) (v : ℚ) (hn : chunkedAction scan lo hi T H node n v ≠ .refine) :
    chunkedAction scan lo hi T H node n v =
      if ¬ (n.height ≤ T ∧ n.height + 2 ≤ H) ∧ (scan.updateType n = .fullyUnobserved ∨ (scan.updateType n ≠ .possiblyOccupied ∧ v < lo + chunkedNoise)) then .keep
      else if n.height ≤ T ∧ n.height + 2 ≤ H then .assign (clamp (lo - chunkedNoise) (hi + chunkedNoise) (scan.sample n + v)) false
      else .assign (v + scan.sample n) true := by
  unfold chunkedAction at hn ⊢
  by_cases h1 : n.height ≤ T ∧ n.height + 2 ≤ H
  · rw [if_pos h1, if_neg (fun h => h.1 h1), if_pos h1, leafUpdate_clamp scan hlo]
  · rw [if_neg h1] at hn ⊢
    by_cases h2 : scan.updateType n = .fullyUnobserved
    · rw [if_pos h2, if_pos ⟨h1, Or.inl h2⟩]
    · rw [if_neg h2] at hn ⊢
      by_cases h3 : scan.updateType n ≠ .possiblyOccupied ∧ v < lo + chunkedNoise
      · rw [if_pos h3, if_pos ⟨h1, Or.inr h3⟩]
      · rw [if_neg h3] at hn ⊢
        have hk : ¬ (¬ (n.height ≤ T ∧ n.height + 2 ≤ H) ∧
            (scan.updateType n = .fullyUnobserved ∨ (scan.updateType n ≠ .possiblyOccupied ∧ v < lo + chunkedNoise))) := fun h => h.2.elim h2 h3
        by_cases h4 : scan.coarseEnough (scan.updateType n) n = true
        · rw [if_pos h4, if_neg hk, if_neg h1]
        · rw [if_neg h4] at hn
          exact absurd rfl hn

/-- The value of a cell of an updated block. -/
theorem Rel.cell_updated (hrel : c.Rel m) (h : m.Sound) (j : Index 3) (now stamp : ℚ) (s : Nat) (hs : c.StopsAt scan j s) :
    WTree.getValue
      (((m.blocks.getBlock (indexToBlockIndex m.config.treeHeight j)).getD
        (.create m.config.treeHeight m.config.minLogOdds m.config.maxLogOdds now)).updatedChunked scan m.config (indexToBlockIndex m.config.treeHeight j) stamp).root
      (((m.blocks.getBlock (indexToBlockIndex m.config.treeHeight j)).getD
        (.create m.config.treeHeight m.config.minLogOdds m.config.maxLogOdds now)).updatedChunked scan m.config (indexToBlockIndex m.config.treeHeight j) stamp).rootScale
      (cellPath m.config.treeHeight j) = c.getCellValue j + c.ScanChange scan j s ∧
    (¬ c.Skipped scan j s → ¬ c.Batched scan s →
      (((m.blocks.getBlock (indexToBlockIndex m.config.treeHeight j)).getD
        (.create m.config.treeHeight m.config.minLogOdds m.config.maxLogOdds now)).updatedChunked scan m.config
          (indexToBlockIndex m.config.treeHeight j) stamp).needsThresholding = true) := by
  obtain ⟨hsH, href, hstop⟩ := hs
  have hV := h.node_value' now j
  have hfit := h.getD (indexToBlockIndex m.config.treeHeight j) now
  have hcell : m.getCellValue j = m.getNodeValue (indexAndHeightToNodeIndex j 0) := by
    rw [HashedWaveletOctree.cell_value h.le h.heights, HashedWaveletOctree.node_value h.le h.heights j 0 (Nat.zero_le _), Nat.sub_zero,
      List.take_of_length_le (by rw [cellPath_length])]
  have hV0 := hV 0 (Nat.zero_le _)
  rw [Nat.sub_zero, List.take_of_length_le (by rw [cellPath_length])] at hV0
  rw [hrel.get, hcell]
  unfold ScanChange
  unfold Refines at href hstop
  unfold Skipped Batched
  unfold Batched at href hstop
  dsimp only at href hstop ⊢
  simp only [hrel.getNode, hrel.config] at hsH href hstop ⊢
  have hVs := hV s (le_of_lt hsH)
  generalize hb : (m.blocks.getBlock (indexToBlockIndex m.config.treeHeight j)).getD
    (.create m.config.treeHeight m.config.minLogOdds m.config.maxLogOdds now) = b at *
  have hn : (⟨(m.config.treeHeight : Int), indexToBlockIndex m.config.treeHeight j⟩ : NdtreeIndex 3) =
    indexAndHeightToNodeIndex j m.config.treeHeight := rfl
  have hbat : ∀ k : Nat, ((k : Int) ≤ scan.terminationHeight m.config.minCellWidth ∧ k + 2 ≤ m.config.treeHeight) ↔
      ((indexAndHeightToNodeIndex j k).height ≤ scan.terminationHeight m.config.minCellWidth ∧ (indexAndHeightToNodeIndex j k).height + 2 ≤ (m.config.treeHeight : Int)) := by
    intro k
    have : (indexAndHeightToNodeIndex j k).height = (k : Int) := rfl
    rw [this]
    omega
  have hre : ∀ k, s < k → k < m.config.treeHeight →
      chunkedAction scan m.config.minLogOdds m.config.maxLogOdds (scan.terminationHeight m.config.minCellWidth) m.config.treeHeight
        (b.root.descend ((cellPath m.config.treeHeight j).take (m.config.treeHeight - k))) (indexAndHeightToNodeIndex j k)
        (b.root.getValue b.rootScale ((cellPath m.config.treeHeight j).take (m.config.treeHeight - k))) = .refine := by
    intro k h1 h2
    have := href k h1 h2
    rw [hV k (le_of_lt h2), hbat] at this
    exact (action_refine _ _ _).2 this
  have hst : chunkedAction scan m.config.minLogOdds m.config.maxLogOdds (scan.terminationHeight m.config.minCellWidth) m.config.treeHeight
        (b.root.descend ((cellPath m.config.treeHeight j).take (m.config.treeHeight - s))) (indexAndHeightToNodeIndex j s)
        (b.root.getValue b.rootScale ((cellPath m.config.treeHeight j).take (m.config.treeHeight - s))) ≠ .refine := by
    intro hc
    rw [hVs, hbat] at hstop
    exact hstop ((action_refine _ _ _).1 hc)
  have hact := action_stop (le_of_lt h.bounds) _ _ _ hst
  obtain ⟨c1, c2⟩ := updNode_cell j s m.config.treeHeight b.root b.rootScale b.needsThresholding hfit.root hsH hre
  have hmk := updNode_marks j s m.config.treeHeight b.root b.rootScale b.needsThresholding hfit.root hsH hre
  rw [← hV0, ← hVs] at c1 c2
  rw [← hVs] at hact hmk
  unfold WaveletBlock.updatedChunked
  rw [hn]
  dsimp only
  simp only [hbat s]
  have hcn : (1 : ℚ) / 1000 = chunkedNoise := rfl
  rw [hcn]
  refine ⟨?_, fun hk ht => ?_⟩
  · split
    · rename_i hsk
      rw [if_pos hsk] at hact
      rw [c2 hact, add_zero]
    · rename_i hsk
      rw [if_neg hsk] at hact
      split
      · rename_i hf
        rw [if_pos hf] at hact
        rw [c1 _ _ hact]
      · rename_i hf
        rw [if_neg hf] at hact
        rw [c1 _ _ hact]
        ring
  · rw [if_neg hk, if_neg ht] at hact
    exact hmk ⟨_, hact⟩

/-! ## Bounds -/

/-- Blocks that are not marked for thresholding are within the bounds, up to the noise threshold. -/
def Padded (m : HashedWaveletOctree) : Prop :=
  ∀ k b, m.blocks.getBlock k = some b → b.needsThresholding = false →
    WTree.Bounded (m.config.minLogOdds - chunkedNoise) (m.config.maxLogOdds + chunkedNoise) b.root b.rootScale

theorem bounded_mono {lo hi lo' hi' : ℚ} {t : WTree} {s : ℚ} (h : WTree.Bounded lo hi t s) (h1 : lo' ≤ lo) (h2 : hi ≤ hi') : WTree.Bounded lo' hi' t s :=
  fun q hq => ⟨le_trans h1 (h q hq).1, le_trans (h q hq).2 h2⟩

theorem chunkedNoise_pos : (0 : ℚ) < chunkedNoise := by unfold chunkedNoise; norm_num

theorem threshold_flag (b : WaveletBlock) : b.threshold.needsThresholding = false := by
  unfold WaveletBlock.threshold
  split
  · rfl
  · next h => simpa using h

theorem threshold_bounded (hm : m.Sound) (hp : Padded m) {k : Index 3} {b : WaveletBlock} (hb : m.blocks.getBlock k = some b) :
    WTree.Bounded (m.config.minLogOdds - chunkedNoise) (m.config.maxLogOdds + chunkedNoise) b.threshold.root b.threshold.rootScale := by
  have := chunkedNoise_pos
  unfold WaveletBlock.threshold
  split
  · dsimp only
    rw [(hm.fits k b hb).minOk, (hm.fits k b hb).maxOk]
    exact bounded_mono (WTree.bounded_recThreshold (le_of_lt hm.bounds) b.root b.rootScale) (by linarith) (by linarith)
  · next h => exact hp k b hb (by simpa using h)

theorem prune_bounded (hm : m.Sound) (hp : Padded m) {k : Index 3} {b : WaveletBlock} (hb : m.blocks.getBlock k = some b)
    (hf : b.prune.needsThresholding = false) :
    WTree.Bounded (m.config.minLogOdds - chunkedNoise) (m.config.maxLogOdds + chunkedNoise) b.prune.root b.prune.rootScale := by
  revert hf
  unfold WaveletBlock.prune
  split
  · intro _; exact (threshold_bounded hm hp hb).recPrune
  · intro hf; exact hp k b hb hf

theorem Padded.write (hp : Padded m) (i : Index 3) (now : ℚ) (f : WaveletBlock → WaveletBlock) (hf : ∀ b, (f b).needsThresholding = true) :
    Padded { m with blocks := ((m.getOrAllocateBlock (indexToBlockIndex m.config.treeHeight i) now).blocks.modifyBlock
        (indexToBlockIndex m.config.treeHeight i) f) } := by
  intro k b hk ht
  have hk' : _ = some b := (HashedWaveletOctree.modify_getBlock m i now f k).symm.trans hk
  split at hk'
  · injection hk' with hk'
    rw [← hk', hf] at ht
    cases ht
  · exact hp _ _ hk' ht

theorem Padded.eraseIf (hm : m.Sound) (f : Index 3 → WaveletBlock → WaveletBlock × Bool)
    (hf : ∀ k b, m.blocks.getBlock k = some b → (f k b).1.needsThresholding = false →
      WTree.Bounded (m.config.minLogOdds - chunkedNoise) (m.config.maxLogOdds + chunkedNoise) (f k b).1.root (f k b).1.rootScale) :
    Padded { m with blocks := m.blocks.eraseBlockIf f } := by
  intro k b hk ht
  dsimp only at hk ⊢
  rw [SpatialHash.getBlock_eraseBlockIf _ hm.nodup] at hk
  cases e : m.blocks.getBlock k with
  | none => rw [e] at hk; cases hk
  | some b' =>
    rw [e] at hk
    simp only [Option.bind_some] at hk
    split at hk
    · cases hk
    · injection hk with hk
      subst hk
      exact hf _ _ e ht

theorem Padded.run (hm : m.Sound) (hp : Padded m) (o : HashedWaveletOp) : Padded (o.run m) := by
  cases o with
  | write w =>
    cases w with
    | add i u now => exact hp.write i now (fun b => b.addToCellValue (m.nodeToCellIndex ⟨0, i⟩) u now) fun _ => rfl
    | set i v now => exact hp.write i now (fun b => b.setCellValue (m.nodeToCellIndex ⟨0, i⟩) v now) fun _ => rfl
    | threshold =>
      intro k b hk ht
      have hk : (m.blocks.mapBlocks fun _ b => b.threshold).getBlock k = some b := hk
      rw [SpatialHash.getBlock_mapBlocks] at hk
      cases e : m.blocks.getBlock k with
      | none => rw [e] at hk; cases hk
      | some b' =>
        rw [e] at hk
        injection hk with hk
        subst hk
        exact threshold_bounded hm hp e
    | clear => intro k b hk; cases hk
  | prune => exact Padded.eraseIf hm _ fun _ _ hb ht => prune_bounded hm hp hb ht
  | pruneSmart now =>
    refine Padded.eraseIf hm _ fun k b hb => ?_
    dsimp only
    unfold WaveletBlock.pruneIf
    split
    · exact prune_bounded hm hp hb
    · exact hp k b hb
  | eraseBlocks p => exact Padded.eraseIf hm _ fun k b hb => hp k b hb

theorem updated_bounded {config : HashedWaveletOctreeConfig} {b : WaveletBlock} (hb : b.Fits config.treeHeight config.minLogOdds config.maxLogOdds)
    (hH : 2 ≤ config.treeHeight) (hlo : config.minLogOdds ≤ config.maxLogOdds) (hT : scan.terminationHeight config.minCellWidth = 0) (k : Index 3) (now : ℚ)
    (h0 : b.needsThresholding = false → WTree.Bounded (config.minLogOdds - chunkedNoise) (config.maxLogOdds + chunkedNoise) b.root b.rootScale)
    (hf : (b.updatedChunked scan config k now).needsThresholding = false) :
    WTree.Bounded (config.minLogOdds - chunkedNoise) (config.maxLogOdds + chunkedNoise) (b.updatedChunked scan config k now).root
      (b.updatedChunked scan config k now).rootScale := by
  have hn := chunkedNoise_pos
  unfold WaveletBlock.updatedChunked at hf ⊢
  rw [hT] at hf ⊢
  dsimp only at hf ⊢
  refine updNode_bounded ?_ (chunkedAction_height (le_refl _) hH) _ _ _ _ _ rfl hb.root hb.depth (h0 ?_) hf
  · intro node n v w b ha
    unfold chunkedAction at ha
    by_cases h1 : n.height ≤ 0 ∧ n.height + 2 ≤ (config.treeHeight : Int)
    · rw [if_pos h1] at ha
      injection ha with ha _
      refine Or.inr ⟨h1.1, ?_⟩
      rw [← ha, leafUpdate_clamp scan hlo]
      exact clamp_mem (by linarith) _
    · rw [if_neg h1] at ha
      split at ha
      · cases ha
      · split at ha
        · cases ha
        · split at ha
          · injection ha with _ ha; exact Or.inl ha.symm
          · cases ha
  · rw [updNode_flag] at hf
    rw [Bool.or_eq_false_iff] at hf
    exact hf.1

theorem terminationHeight_zero {w : ℚ} (h : scan.maxUpdateResolution ≤ w) : scan.terminationHeight w = 0 := by
  unfold Scan.terminationHeight
  exact if_neg (not_lt.2 h)

/-- The measurement may be integrated down to single cells. -/
def Fine (w : ℚ) : MappingOp → Prop
  | .op _ => True
  | .integrate scan _ _ _ => scan.maxUpdateResolution ≤ w

theorem create_bounded {H : Nat} {lo hi now L U : ℚ} (hL : L ≤ 0) (hU : 0 ≤ U) :
    WTree.Bounded L U (WaveletBlock.create H lo hi now).root (WaveletBlock.create H lo hi now).rootScale := by
  intro q _
  have : WTree.getValue (WaveletBlock.create H lo hi now).root (WaveletBlock.create H lo hi now).rootScale q = 0 := by
    simp only [WaveletBlock.create]
    cases q with
    | nil => rfl
    | cons c q =>
      rw [WTree.getValue_cons _ (by simp), child_leaf, WTree.getValue_nil]
      exact bwd_single_const 0 c
  rw [this]
  exact ⟨hL, hU⟩

theorem Rel.padded_step (h : c.Rel m) (hm : m.Sound) (hH : 2 ≤ m.config.treeHeight) (h0 : m.config.minLogOdds ≤ 0 ∧ 0 ≤ m.config.maxLogOdds)
    (hp : Padded m) (o : MappingOp) (ho : o.Valid) (hfine : Fine m.config.minCellWidth o) :
    ∃ (c' : HashedChunkedWaveletOctree) (m' : HashedWaveletOctree), o.runChunked c = some c' ∧ c'.Rel m' ∧ m'.Sound ∧ m'.config = m.config ∧ Padded m' := by
  have hn := chunkedNoise_pos
  cases o with
  | op o =>
    obtain ⟨c', h1, h2⟩ := h.step hm.shaped o
    exact ⟨c', _, h1, h2, hm.run o, HashedWaveletOctree.run_config m o, hp.run hm o⟩
  | integrate scan schedule now stamp =>
    obtain ⟨c', m', jobs, h1, h2, h3, h4, _, h5, _⟩ := h.updateMap hm hH ho.1 schedule ho.2 now stamp
    refine ⟨c', m', h1, h2, h3, h4, fun k b hk ht => ?_⟩
    rw [h4]
    rw [h5] at hk
    split at hk
    · injection hk with hk
      subst hk
      refine updated_bounded (hm.getD k now) hH (le_of_lt hm.bounds) (terminationHeight_zero hfine) _ _ ?_ ht
      cases e : m.blocks.getBlock k with
      | none => exact fun _ => create_bounded (by linarith) (by linarith)
      | some b' => exact hp k b' e
    · exact hp k b hk ht

theorem Rel.padded_steps (ops : List MappingOp) : ∀ (c : HashedChunkedWaveletOctree) (m : HashedWaveletOctree), c.Rel m → m.Sound →
    2 ≤ m.config.treeHeight → (m.config.minLogOdds ≤ 0 ∧ 0 ≤ m.config.maxLogOdds) → Padded m → (∀ o ∈ ops, o.Valid) → (∀ o ∈ ops, Fine m.config.minCellWidth o) →
    ∃ (c' : HashedChunkedWaveletOctree) (m' : HashedWaveletOctree), ops.foldlM MappingOp.runChunked c = some c' ∧ c'.Rel m' ∧ m'.Sound ∧
      m'.config = m.config ∧ Padded m' := by
  induction ops with
  | nil => intro c m h hm _ _ hp _ _; exact ⟨c, m, rfl, h, hm, rfl, hp⟩
  | cons o ops ih =>
    intro c m h hm hH h0 hp hv hf
    obtain ⟨c1, m1, h1, h2, h3, h4, h5⟩ := h.padded_step hm hH h0 hp o (hv o (List.mem_cons_self ..)) (hf o (List.mem_cons_self ..))
    obtain ⟨c2, m2, h6, h7, h8, h9, h10⟩ := ih c1 m1 h2 h3 (by rw [h4]; exact hH) (by rw [h4]; exact h0) h5
      (fun o ho => hv o (List.mem_cons_of_mem _ ho)) (fun o ho => by rw [h4]; exact hf o (List.mem_cons_of_mem _ ho))
    exact ⟨c2, m2, by rw [List.foldlM_cons, h1]; exact h6, h7, h8, by rw [h9, h4], h10⟩

end HashedChunkedWaveletOctree

/-! ## Theorems -/

/-- Any sequence of operations and measurements completes. -/
theorem C44_chunked_terminates (config : HashedWaveletOctreeConfig) (hc : config.isValidChunked = true) (hH : 2 ≤ config.treeHeight) (ops : List MappingOp)
    (ho : ∀ o ∈ ops, o.Valid) : ∃ m, ops.foldlM MappingOp.runChunked (HashedChunkedWaveletOctree.create config) = some m ∧ m.config = config := by
  obtain ⟨c', m', h1, h2, _, h4⟩ := HashedChunkedWaveletOctree.Rel.mapping_steps ops ho (.create config) (.create config) ⟨rfl, .nil⟩
    (HashedChunkedWaveletOctree.create_sound hc) hH
  exact ⟨c', h1, by rw [h2.config, h4]; rfl⟩

/-- C44 for the default map type: integrating a measurement changes the cells of the selected blocks by exactly the update of the node that the
search stops at, and no other cell. -/
theorem C44_chunked_cells (m : HashedChunkedWaveletOctree) (hm : m.Mapped) (scan : Scan) (hr : 0 ≤ scan.maxRange)
    (schedule : List (Index 3) → List (Index 3)) (hs : ∀ l, (schedule l).Perm l) (now : ℚ) (stamp : Index 3 → ℚ) :
    ∃ m', m.updateMap scan schedule now stamp = some m' ∧ ∀ j,
      (m.Selected scan j → ∃ s, m.StopsAt scan j s ∧ m'.getCellValue j = m.getCellValue j + m.ScanChange scan j s) ∧
      (¬ m.Selected scan j → m'.getCellValue j = m.getCellValue j) := by
  obtain ⟨p, hrel, h, hH⟩ := hm.shadow
  obtain ⟨m', p', jobs, h1, h2, h3, h4, h5, h6, -⟩ := hrel.updateMap h hH hr schedule hs now stamp
  refine ⟨m', h1, fun j => ⟨fun hsel => ?_, fun hsel => ?_⟩⟩
  · obtain ⟨s, s1, s2, s3⟩ := HashedWaveletOctree.exists_stop (m.Refines scan j) (by
      unfold HashedChunkedWaveletOctree.Refines HashedChunkedWaveletOctree.Batched
      intro hc
      refine hc.1 ⟨?_, ?_⟩
      · rw [hrel.config]; exact scan.terminationHeight_nonneg _ h.width
      · rw [hrel.config]; omega) m.config.treeHeight (by rw [hrel.config]; exact h.pos)
    refine ⟨s, ⟨s1, s2, s3⟩, ?_⟩
    have hj := (h5 j).2 hsel
    rw [hrel.config] at hj
    rw [h2.get, HashedWaveletOctree.cell_value h3.le h3.heights, h4, h6, if_pos hj]
    exact (hrel.cell_updated h j now _ s ⟨s1, s2, s3⟩).1
  · have hj : indexToBlockIndex p.config.treeHeight j ∉ jobs := by rw [← hrel.config]; exact fun e => hsel ((h5 j).1 e)
    rw [h2.get, hrel.get, HashedWaveletOctree.cell_value h3.le h3.heights, h4, h6, if_neg hj, HashedWaveletOctree.cell_value h.le h.heights]

/-- The node that the search stops at is determined by the map and the measurement. -/
theorem C44_chunked_stop_unique (m : HashedChunkedWaveletOctree) (scan : Scan) (j : Index 3) (s s' : Nat) (h : m.StopsAt scan j s)
    (h' : m.StopsAt scan j s') : s = s' := by
  rcases Nat.lt_trichotomy s s' with hlt | heq | hlt
  · exact absurd (h.2.1 s' hlt h'.1) h'.2.2
  · exact heq
  · exact absurd (h'.2.1 s hlt h.1) h.2.2

/-- Blocks that are not selected do not change at all; selected blocks exist afterwards, have the time of their update as their stamp, will be visited by the
next pruning, and are marked for thresholding if an unclamped update was applied in them. -/
theorem C44_chunked_blocks (m : HashedChunkedWaveletOctree) (hm : m.Mapped) (scan : Scan) (hr : 0 ≤ scan.maxRange)
    (schedule : List (Index 3) → List (Index 3)) (hs : ∀ l, (schedule l).Perm l) (now : ℚ) (stamp : Index 3 → ℚ) :
    ∃ m', m.updateMap scan schedule now stamp = some m' ∧ m'.config = m.config ∧ ∀ j k, InBlock m.config.treeHeight k j →
      (¬ m.Selected scan j → m'.blocks.getBlock k = m.blocks.getBlock k) ∧
      (m.Selected scan j → ∃ b, m'.blocks.getBlock k = some b ∧ b.lastUpdated = stamp k ∧ b.needsPruning = true ∧
        (∀ s, m.StopsAt scan j s → ¬ m.Skipped scan j s → ¬ m.Batched scan s → b.needsThresholding = true)) := by
  obtain ⟨p, hrel, h, hH⟩ := hm.shadow
  obtain ⟨m', p', jobs, h1, h2, h3, h4, h5, h6, h7⟩ := hrel.updateMap h hH hr schedule hs now stamp
  refine ⟨m', h1, by rw [h2.config, h4, hrel.config], fun j k hk => ?_⟩
  rw [inBlock_iff] at hk
  subst hk
  refine ⟨fun hsel => ?_, fun hsel => ?_⟩
  · rw [h7, if_neg (fun e => hsel ((h5 j).1 e))]
  · have hj := (h5 j).2 hsel
    rw [hrel.config] at hj ⊢
    rcases HashedChunkedWaveletOctree.blocks_get h2.blocks (indexToBlockIndex p.config.treeHeight j) with ⟨e1, e2⟩ | ⟨x, b, e1, e2, e3⟩
    · rw [h6, if_pos hj] at e2; cases e2
    · rw [h6, if_pos hj] at e2
      injection e2 with e2
      subst e2
      exact ⟨x, e1, e3.stamp, e3.prn, fun s hst hk hbt => e3.thr.trans ((hrel.cell_updated h j now _ s hst).2 hk hbt)⟩

/-- The order in which the thread pool runs the tasks has no effect. -/
theorem C44_chunked_schedule_independent (m : HashedChunkedWaveletOctree) (hm : m.Mapped) (scan : Scan) (hr : 0 ≤ scan.maxRange)
    (s s' : List (Index 3) → List (Index 3)) (hs : ∀ l, (s l).Perm l) (hs' : ∀ l, (s' l).Perm l) (now : ℚ) (stamp : Index 3 → ℚ) :
    ∃ m₁ m₂, m.updateMap scan s now stamp = some m₁ ∧ m.updateMap scan s' now stamp = some m₂ ∧
      ∀ k, m₁.blocks.getBlock k = m₂.blocks.getBlock k := by
  obtain ⟨p, hrel, h, hH⟩ := hm.shadow
  obtain ⟨m₁, _, jobs, h1, _, _, _, h5, _, h7⟩ := hrel.updateMap h hH hr s hs now stamp
  obtain ⟨m₂, _, jobs', i1, _, _, _, i5, _, i7⟩ := hrel.updateMap h hH hr s' hs' now stamp
  refine ⟨m₁, m₂, h1, i1, fun k => ?_⟩
  rw [h7, i7]
  have hk : k = indexToBlockIndex m.config.treeHeight (fun i => k i * 2 ^ m.config.treeHeight) := by
    funext i
    simp only [indexToBlockIndex, divExp2Floor_eq]
    rw [Int.mul_ediv_cancel _ (Int.ne_of_gt (two_pow_pos' _))]
  have : k ∈ jobs ↔ k ∈ jobs' := by rw [hk, h5, i5]
  simp only [this]

/-- The representation stays consistent: after any history of operations and measurements, a node's value is the mean of its cells. -/
theorem C44_chunked_node_mean (m : HashedChunkedWaveletOctree) (hm : m.Mapped) (n : NdtreeIndex 3) (h0 : 0 ≤ n.height)
    (h1 : n.height ≤ m.config.treeHeight) :
    m.getNodeValue n = boxMean m.getCellValue n.height.toNat fun k => n.position k * 2 ^ n.height.toNat := by
  obtain ⟨p, hrel, h, hH⟩ := hm.shadow
  have e : m.getCellValue = p.getCellValue := funext fun j => hrel.get j
  rw [hrel.getNode, e]
  exact h.node_mean n h0 (by rw [← hrel.config]; exact h1)

/-- Bounds: if measurements may be integrated down to single cells, thresholding brings all cells within the bounds, up to the noise threshold, after any
history. -/
theorem C44_chunked_bounds (config : HashedWaveletOctreeConfig) (hc : config.isValidChunked = true) (hH : 2 ≤ config.treeHeight)
    (h0 : config.minLogOdds ≤ 0 ∧ 0 ≤ config.maxLogOdds) (ops : List MappingOp) (ho : ∀ o ∈ ops, o.Valid)
    (hfine : ∀ scan schedule now stamp, .integrate scan schedule now stamp ∈ ops → scan.maxUpdateResolution ≤ config.minCellWidth) :
    ∃ m m', ops.foldlM MappingOp.runChunked (HashedChunkedWaveletOctree.create config) = some m ∧ m.threshold = some m' ∧
      ∀ j, config.minLogOdds - 1 / 1000 ≤ m'.getCellValue j ∧ m'.getCellValue j ≤ config.maxLogOdds + 1 / 1000 := by
  have hn := HashedChunkedWaveletOctree.chunkedNoise_pos
  obtain ⟨c, m, h1, h2, h3, h4, h5⟩ := HashedChunkedWaveletOctree.Rel.padded_steps ops (.create config) (.create config) ⟨rfl, .nil⟩
    (HashedChunkedWaveletOctree.create_sound hc) hH h0 (fun k b hk => by cases hk) ho (fun o ho' => by
      cases o with
      | op o => trivial
      | integrate scan schedule now stamp => exact hfine _ _ _ _ ho')
  obtain ⟨c', e1, e2⟩ := h2.step h3.shaped (.write .threshold)
  refine ⟨c, c', h1, e1, fun j => ?_⟩
  have hs : HashedWaveletOctree.Sound (HashedWaveletOp.run m (.write .threshold)) := h3.run _
  have hcfg := HashedWaveletOctree.run_config m (.write .threshold)
  rw [e2.get, HashedWaveletOctree.cell_value hs.le hs.heights, hcfg, h4]
  have hcc : (HashedWaveletOctree.create config).config = config := rfl
  rw [hcc]
  have hb : (HashedWaveletOp.run m (.write .threshold)).blocks.getBlock (indexToBlockIndex config.treeHeight j) =
      (m.blocks.getBlock (indexToBlockIndex config.treeHeight j)).map fun b => b.threshold :=
    SpatialHash.getBlock_mapBlocks m.blocks _ fun _ b => b.threshold
  rw [hb]
  cases e : m.blocks.getBlock (indexToBlockIndex config.treeHeight j) with
  | none =>
    have hcn : (1 : ℚ) / 1000 = chunkedNoise := rfl
    rw [hcn]
    exact ⟨by simp only [Option.map_none]; linarith, by simp only [Option.map_none]; linarith⟩
  | some b =>
    have := HashedChunkedWaveletOctree.threshold_bounded h3 h5 e
    rw [h4] at this
    refine this _ ?_
    have hf := (h3.fits _ _ e).threshold
    rw [h4] at hf
    exact hf.depth.descend _ (cellPath_length _ _)

/-! ## Findings -/

/-- A measurement that must be refined down to the finest update resolution `res` in the block at the origin, with update `sample`. -/
def fineScan (res sample : ℚ) : Scan where
  updateType n := if n.position 0 = 0 ∧ n.position 1 = 0 ∧ n.position 2 = 0 then .possiblyOccupied else .fullyUnobserved
  sample _ := sample
  coarseEnough _ _ := false
  origin _ := 0
  maxRange := 1
  maxUpdateResolution := res

/-- One occupied cell, then a measurement at a resolution of two cells. -/
def pairOps : List MappingOp :=
  [.op (.write (.add (fun _ => 0) 4 0)), .op (.write .threshold), .integrate (fineScan 2 (-3)) id 1 fun _ => 2]

theorem pairOps_valid : ∀ o ∈ pairOps, o.Valid := by
  intro o ho
  simp only [pairOps, List.mem_cons, List.not_mem_nil, or_false] at ho
  rcases ho with rfl | rfl | rfl
  · trivial
  · trivial
  · exact ⟨by decide +kernel, fun l => List.Perm.refl l⟩

/-- Finding: the assumption on the resolution in `C44_chunked_bounds` is needed. If updates apply to groups of cells, the mean of a group is clamped and the block is
not marked for thresholding; its cells can leave the bounds and thresholding does not bring them back. -/
theorem C44_chunked_bounds_fails : ∃ m m' j, HashedChunkedWaveletOctree.Mapped m ∧ m.threshold = some m' ∧
    m'.getCellValue j < m.config.minLogOdds - 1 / 4 := by
  obtain ⟨m, h1, h2⟩ := C44_chunked_terminates ⟨1, -2, 4, 3, 5⟩ (by decide +kernel) (by decide) pairOps pairOps_valid
  have hb : ((pairOps.foldlM MappingOp.runChunked (HashedChunkedWaveletOctree.create ⟨1, -2, 4, 3, 5⟩)).any fun m =>
      m.threshold.any fun m' => decide (m'.getCellValue (fun _ => 1) < -2 - 1 / 4)) = true := by decide +kernel
  rw [h1, Option.any_some] at hb
  cases e : m.threshold with
  | none => rw [e] at hb; cases hb
  | some m' =>
    rw [e] at hb
    refine ⟨m, m', fun _ => 1, ⟨_, by decide +kernel, by decide, pairOps, pairOps_valid, h1⟩, e, ?_⟩
    rw [h2]
    simpa using hb

/-- One measurement that sees the block at the origin as occupied and applies the update to its octants. -/
def octantOps : List MappingOp :=
  [.integrate { fineScan 1 10 with coarseEnough := fun _ _ => true } id 1 fun _ => 2]

theorem octantOps_valid : ∀ o ∈ octantOps, o.Valid := by
  intro o ho
  simp only [octantOps, List.mem_cons, List.not_mem_nil, or_false] at ho
  subst ho
  exact ⟨by decide +kernel, fun l => List.Perm.refl l⟩

/-- Finding: the plain and the chunked map do not agree after the same measurement: only the former clamps the update of a large node. -/
theorem C44_agree_fails : ∃ (config : HashedWaveletOctreeConfig) (ops : List MappingOp) (m : HashedWaveletOctree) (m' : HashedChunkedWaveletOctree) (j : Index 3), (∀ o ∈ ops, o.Valid) ∧ config.isValidChunked = true ∧
    ops.foldlM MappingOp.run (HashedWaveletOctree.create config) = some m ∧
    ops.foldlM MappingOp.runChunked (HashedChunkedWaveletOctree.create config) = some m' ∧
    m.getCellValue j ≤ config.maxLogOdds + 1 / 1000 ∧ m'.getCellValue j = 10 ∧ config.maxLogOdds = 4 := by
  obtain ⟨m, h1, _⟩ := C44_terminates ⟨1, -2, 4, 2, 5⟩ (by decide +kernel) (by decide) octantOps octantOps_valid
  obtain ⟨m', h2, _⟩ := C44_chunked_terminates ⟨1, -2, 4, 2, 5⟩ (by decide +kernel) (by decide) octantOps octantOps_valid
  have hb : ((octantOps.foldlM MappingOp.run (HashedWaveletOctree.create ⟨1, -2, 4, 2, 5⟩)).any fun m =>
      decide (m.getCellValue (fun _ => 1) ≤ 4 + 1 / 1000)) = true := by decide +kernel
  have hb' : ((octantOps.foldlM MappingOp.runChunked (HashedChunkedWaveletOctree.create ⟨1, -2, 4, 2, 5⟩)).any fun m =>
      decide (m.getCellValue (fun _ => 1) = 10)) = true := by decide +kernel
  rw [h1] at hb
  rw [h2] at hb'
  exact ⟨_, octantOps, m, m', fun _ => 1, octantOps_valid, by decide +kernel, h1, h2, by simpa using hb, by simpa using hb', rfl⟩

/-- Finding: in blocks of height 1, the integrator evaluates the measurement at nodes of height -1, below the cells. The conversion of such a
node to its center shifts by a negative number, which is undefined (index_conversions.h:75-78, int_math.h:11-14). The witness is
a measurement whose update is zero at all proper nodes. -/
theorem C44_chunked_height_one_fails : ∃ (config : HashedWaveletOctreeConfig) (scan : Scan) (m : HashedChunkedWaveletOctree), config.isValidChunked = true ∧ config.treeHeight = 1 ∧
    (∀ n, 0 ≤ n.height → scan.sample n = 0) ∧ (HashedChunkedWaveletOctree.create config).updateMap scan id 0 (fun _ => 0) = some m ∧
    m.getCellValue (fun _ => 0) = 1 := by
  have hb : (((HashedChunkedWaveletOctree.create ⟨1, -2, 4, 1, 5⟩).updateMap { fineScan 1 0 with sample := fun n => if n.height < 0 then 1 else 0 } id 0 fun _ => 0).any fun m =>
      decide (m.getCellValue (fun _ => 0) = 1)) = true := by decide +kernel
  cases e : (HashedChunkedWaveletOctree.create ⟨1, -2, 4, 1, 5⟩).updateMap { fineScan 1 0 with sample := fun n => if n.height < 0 then 1 else 0 } id 0 fun _ => 0 with
  | none => rw [e] at hb; cases hb
  | some m =>
    rw [e] at hb
    exact ⟨_, _, m, by decide +kernel, rfl, fun n hn => if_neg (not_lt.2 hn), e, by simpa using hb⟩

/-! ## Examples -/

/-- The hypotheses are met: a map with stored values, in which a measurement changes a cell. -/
example : ∃ (m : HashedChunkedWaveletOctree), m.Mapped ∧ m.Selected (fineScan 1 3) (fun _ => 0) ∧ m.StopsAt (fineScan 1 3) (fun _ => 0) 0 ∧
    m.ScanChange (fineScan 1 3) (fun _ => 0) 0 = 1 / 1000 ∧ ¬ m.Selected (fineScan 1 3) fun _ => 100 := by
  obtain ⟨m, h1, h2⟩ := C44_chunked_terminates ⟨1, -2, 4, 2, 5⟩ (by decide +kernel) (by decide)
    [.op (.write (.add (fun _ => 0) 4 0))] (by simp [MappingOp.Valid])
  have hm : m.Mapped := ⟨_, by decide +kernel, by decide, _, by simp [MappingOp.Valid], h1⟩
  have hb : (([MappingOp.op (.write (.add (fun _ => 0) 4 0))].foldlM MappingOp.runChunked (HashedChunkedWaveletOctree.create ⟨1, -2, 4, 2, 5⟩)).any fun m =>
      decide (m.ScanChange (fineScan 1 3) (fun _ => 0) 0 = 1 / 1000)) = true := by decide +kernel
  rw [h1] at hb
  have hT : (fineScan 1 3).terminationHeight m.config.minCellWidth = 0 := by
    rw [h2]; exact HashedChunkedWaveletOctree.terminationHeight_zero (by decide +kernel)
  have hbat : ∀ k, m.Batched (fineScan 1 3) k ↔ k = 0 := by
    intro k
    unfold HashedChunkedWaveletOctree.Batched
    rw [hT, h2]
    dsimp only
    omega
  have hzero : ∀ k : Nat, indexAndHeightToNodeIndex (fun _ : Fin 3 => (0 : Int)) k = ⟨k, fun _ => 0⟩ := by
    intro k; unfold indexAndHeightToNodeIndex; congr 1; funext i; rw [divExp2Floor_eq]; simp
  have htype : ∀ k : Nat, (fineScan 1 3).updateType (⟨k, fun _ => 0⟩ : NdtreeIndex 3) = .possiblyOccupied := fun k => by simp [fineScan]
  refine ⟨m, hm, ⟨?_, fun h _ _ => ?_, Or.inl ?_⟩, ⟨by rw [h2]; decide, ?_, ?_⟩, by simpa using hb, ?_⟩
  · rw [h2]; decide +kernel
  · rw [hzero, htype]; decide
  · rw [hzero, htype]
  · intro k h3 _
    refine ⟨by rw [hbat]; omega, ?_, Or.inl ?_, rfl⟩
    · rw [hzero, htype]; decide
    · rw [hzero, htype]
  · intro h; exact h.1 ((hbat 0).2 rfl)
  · intro h
    refine absurd (h.2.1 2 (by rw [h2]) ?_) ?_
    · have := fov_height m.config (fineScan 1 3)
      rw [h2] at this ⊢
      exact le_of_lt this
    · decide +kernel

/-- The hypotheses of `C44_chunked_bounds` are met by a history with a measurement. -/
example : ∃ ops : List MappingOp, ops ≠ [] ∧ (∀ o ∈ ops, o.Valid) ∧
    ∀ scan schedule now stamp, MappingOp.integrate scan schedule now stamp ∈ ops → scan.maxUpdateResolution ≤ 1 := by
  refine ⟨octantOps, by simp [octantOps], octantOps_valid, fun scan schedule now stamp h => ?_⟩
  simp only [octantOps, List.mem_cons, List.not_mem_nil, or_false] at h
  injection h with h
  rw [h]
  decide +kernel

end Wavemap
