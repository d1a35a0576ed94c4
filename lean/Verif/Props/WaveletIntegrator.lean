import Verif.Props.Io
import Verif.Props.Iterate
import Verif.Lemmas.WaveletIntegrator
import Mathlib.Tactic.FinCases
import Mathlib.Data.Fintype.Basic
/-!
# C44: integrating a measurement into a hashed wavelet octree

The specification works on the values that the map's own queries return. For a cell `j`, the nodes around it are
`indexAndHeightToNodeIndex j k` for `k = 0, 1, …` (the cell itself, the node of twice its width, …).
-/
namespace Wavemap
open Haar NTree NdtreeIndex

/-! ## Specification -/

/-- What happens to a map: the operations of `HashedWaveletOp`, and measurements. `schedule` is the order in which the thread pool's
tasks take effect. -/
inductive MappingOp where
  | op (o : HashedWaveletOp)
  | integrate (scan : Scan) (schedule : List (Index 3) → List (Index 3)) (now : ℚ) (stamp : Index 3 → ℚ)

/-- The operation on the modelled map. -/
def MappingOp.run (m : HashedWaveletOctree) : MappingOp → Option HashedWaveletOctree
  | .op o => some (o.run m)
  | .integrate scan schedule now stamp => m.updateMap scan schedule now stamp

/-- The maximum range is not negative, and the thread pool runs each task once. -/
def MappingOp.Valid : MappingOp → Prop
  | .op _ => True
  | .integrate scan schedule _ _ => 0 ≤ scan.maxRange ∧ ∀ l, (schedule l).Perm l

/-- A map that results from any sequence of operations and measurements. -/
def HashedWaveletOctree.Mapped (m : HashedWaveletOctree) : Prop :=
  ∃ config : HashedWaveletOctreeConfig, config.isValid = true ∧ config.treeHeight ≤ 20 ∧
    ∃ ops : List MappingOp, (∀ o ∈ ops, o.Valid) ∧ ops.foldlM MappingOp.run (HashedWaveletOctree.create config) = some m

namespace HashedWaveletOctree

/-- The integrator does not treat the node of height `k` around cell `j` as a whole: the node is above the finest update resolution, it is
at least partly observed, a free-space update could still lower it, and the error of one update for the whole node is too large. -/
def Refines (m : HashedWaveletOctree) (scan : Scan) (j : Index 3) (k : Nat) : Prop :=
  let n := indexAndHeightToNodeIndex j k
  scan.terminationHeight m.config.minCellWidth < k ∧ scan.updateType n ≠ .fullyUnobserved ∧
    (scan.updateType n = .possiblyOccupied ∨ m.config.minLogOdds + noiseThreshold / 10 ≤ m.getNodeValue n) ∧
    scan.coarseEnough (scan.updateType n) n = false

/-- The largest node inside the block, around cell `j`, that is treated as a whole has height `s`. -/
def StopsAt (m : HashedWaveletOctree) (scan : Scan) (j : Index 3) (s : Nat) : Prop :=
  s < m.config.treeHeight ∧ (∀ k, s < k → k < m.config.treeHeight → m.Refines scan j k) ∧ ¬ m.Refines scan j s

/-- The map stores details for descendants of the node of height `s` around cell `j`, beyond its eight children. -/
def HasFiner (m : HashedWaveletOctree) (j : Index 3) (s : Nat) : Prop :=
  ∃ b, m.blocks.getBlock (indexToBlockIndex m.config.treeHeight j) = some b ∧
    (b.root.descend ((cellPath m.config.treeHeight j).take (m.config.treeHeight - s))).hasAtLeastOneChild = true

instance (m : HashedWaveletOctree) (j : Index 3) (s : Nat) : Decidable (m.HasFiner j s) :=
  decidable_of_iff (((m.blocks.getBlock (indexToBlockIndex m.config.treeHeight j)).any fun b =>
    (b.root.descend ((cellPath m.config.treeHeight j).take (m.config.treeHeight - s))).hasAtLeastOneChild) = true) (by
      unfold HasFiner; rw [Option.any_eq_true])

/-- The node of height `s` around `j` is skipped: it is not observed, or the update is for free space and the node is already free. -/
def Skipped (m : HashedWaveletOctree) (scan : Scan) (j : Index 3) (s : Nat) : Prop :=
  let n := indexAndHeightToNodeIndex j s
  scan.terminationHeight m.config.minCellWidth < s ∧ (scan.updateType n = .fullyUnobserved ∨
    (scan.updateType n ≠ .possiblyOccupied ∧ m.getNodeValue n < m.config.minLogOdds + noiseThreshold / 10))

instance (m : HashedWaveletOctree) (scan : Scan) (j : Index 3) (s : Nat) : Decidable (m.Skipped scan j s) := by
  unfold Skipped; infer_instance

/-- What is added to all cells of the node of height `s` around `j`, if it is treated as a whole: the measurement model's update
at the node's center; for nodes at the finest resolution and for nodes without stored details below, the node's new mean is clamped. -/
def ScanChange (m : HashedWaveletOctree) (scan : Scan) (j : Index 3) (s : Nat) : ℚ :=
  let n := indexAndHeightToNodeIndex j s
  let v := m.getNodeValue n
  if m.Skipped scan j s then 0
  else if scan.terminationHeight m.config.minCellWidth < s ∧ m.HasFiner j s then scan.sample n
  else clamp (m.config.minLogOdds - noiseThreshold) (m.config.maxLogOdds + noiseThreshold) (scan.sample n + v) - v

/-- The block of cell `j` is updated: the part of the map that is searched includes it, none of the nodes around the
block is entirely unobserved, and the block may see occupied space or exists and is not entirely free. -/
def Selected (m : HashedWaveletOctree) (scan : Scan) (j : Index 3) : Prop :=
  let fov := m.config.fovMinMax scan
  (∀ i, fov.2.1 i ≤ (indexAndHeightToNodeIndex j fov.1).position i ∧ (indexAndHeightToNodeIndex j fov.1).position i ≤ fov.2.2 i) ∧
  (∀ h, m.config.treeHeight ≤ h → h ≤ fov.1 → scan.updateType (indexAndHeightToNodeIndex j h) ≠ .fullyUnobserved) ∧
  (scan.updateType (indexAndHeightToNodeIndex j m.config.treeHeight) = .possiblyOccupied ∨
    (m.Allocated j ∧ m.config.minLogOdds + noiseThreshold / 10 ≤ m.getNodeValue (indexAndHeightToNodeIndex j m.config.treeHeight)))

/-! ## Structural invariant -/

/-- Invariant of mapped maps. -/
structure Sound (m : HashedWaveletOctree) : Prop where
  width : 0 < m.config.minCellWidth
  pos : 0 < m.config.treeHeight
  le : m.config.treeHeight ≤ 20
  bounds : m.config.minLogOdds < m.config.maxLogOdds
  nodup : m.blocks.keys.Nodup
  fits : ∀ k b, m.blocks.getBlock k = some b → b.Fits m.config.treeHeight m.config.minLogOdds m.config.maxLogOdds

variable {m : HashedWaveletOctree} {scan : Scan}

theorem Sound.heights (h : m.Sound) : ∀ k b, m.blocks.getBlock k = some b → b.treeHeight = m.config.treeHeight :=
  fun k b hb => (h.fits k b hb).height

theorem Sound.getD (h : m.Sound) (k : Index 3) (now : ℚ) :
    ((m.blocks.getBlock k).getD (.create m.config.treeHeight m.config.minLogOdds m.config.maxLogOdds now)).Fits
      m.config.treeHeight m.config.minLogOdds m.config.maxLogOdds := by
  cases e : m.blocks.getBlock k with
  | none => exact .create h.pos now
  | some b => exact h.fits _ _ e

theorem Sound.write' (h : m.Sound) (i : Index 3) (now : ℚ) (f : WaveletBlock → WaveletBlock)
    (hf : ∀ b, WaveletBlock.Fits b m.config.treeHeight m.config.minLogOdds m.config.maxLogOdds →
      (f b).Fits m.config.treeHeight m.config.minLogOdds m.config.maxLogOdds) :
    HashedWaveletOctree.Sound { m with blocks := ((m.getOrAllocateBlock (indexToBlockIndex m.config.treeHeight i) now).blocks.modifyBlock
        (indexToBlockIndex m.config.treeHeight i) f) } := by
  refine ⟨h.width, h.pos, h.le, h.bounds, ?_, ?_⟩
  · dsimp only
    rw [SpatialHash.keys_modify]
    exact SpatialHash.keys_getOrAllocate _ _ _ h.nodup
  · intro k b hk
    have hk' : _ = some b := (modify_getBlock m i now f k).symm.trans hk
    split at hk'
    · injection hk' with hk'
      subst hk'
      exact hf _ (h.getD k now)
    · exact h.fits _ _ hk'

theorem Sound.eraseIf (h : m.Sound) (f : Index 3 → WaveletBlock → WaveletBlock × Bool)
    (hf : ∀ k b, WaveletBlock.Fits b m.config.treeHeight m.config.minLogOdds m.config.maxLogOdds →
      (f k b).1.Fits m.config.treeHeight m.config.minLogOdds m.config.maxLogOdds) :
    HashedWaveletOctree.Sound { m with blocks := m.blocks.eraseBlockIf f } := by
  refine ⟨h.width, h.pos, h.le, h.bounds, SpatialHash.keys_eraseBlockIf m.blocks f h.nodup, ?_⟩
  intro k b hk
  dsimp only at hk ⊢
  rw [SpatialHash.getBlock_eraseBlockIf _ h.nodup] at hk
  cases e : m.blocks.getBlock k with
  | none => rw [e] at hk; cases hk
  | some b' =>
    rw [e] at hk
    simp only [Option.bind_some] at hk
    split at hk
    · cases hk
    · injection hk with hk
      subst hk
      exact hf _ _ (h.fits k b' e)

theorem Sound.run (h : m.Sound) (o : HashedWaveletOp) : (o.run m).Sound := by
  cases o with
  | write w =>
    cases w with
    | add i u now =>
      refine h.write' i now (fun b => b.addToCellValue (m.nodeToCellIndex ⟨0, i⟩) u now) fun b hb => ?_
      rw [nodeToCell_zero m h.le]
      exact hb.add h.le i u now
    | set i v now =>
      refine h.write' i now (fun b => b.setCellValue (m.nodeToCellIndex ⟨0, i⟩) v now) fun b hb => ?_
      rw [nodeToCell_zero m h.le, WaveletBlock.set_eq_add]
      exact hb.add h.le i _ now
    | threshold =>
      refine ⟨h.width, h.pos, h.le, h.bounds, ?_, ?_⟩
      · show (m.blocks.mapBlocks fun _ b => b.threshold).keys.Nodup
        rw [SpatialHash.keys_mapBlocks]; exact h.nodup
      · intro k b hk
        have hk : (m.blocks.mapBlocks fun _ b => b.threshold).getBlock k = some b := hk
        rw [SpatialHash.getBlock_mapBlocks] at hk
        cases e : m.blocks.getBlock k with
        | none => rw [e] at hk; cases hk
        | some b' =>
          rw [e] at hk
          injection hk with hk
          subst hk
          exact (h.fits k b' e).threshold
    | clear => exact ⟨h.width, h.pos, h.le, h.bounds, List.nodup_nil, fun k b hk => by cases hk⟩
  | prune => exact h.eraseIf _ fun _ _ hb => hb.prune
  | pruneSmart now =>
    refine h.eraseIf _ fun _ b hb => ?_
    dsimp only
    unfold WaveletBlock.pruneIf
    split
    · exact hb.prune
    · exact hb
  | eraseBlocks p => exact h.eraseIf _ fun _ _ hb => hb

theorem Sound.create {config : HashedWaveletOctreeConfig} (hc : config.isValid = true) (hH : config.treeHeight ≤ 20) :
    (HashedWaveletOctree.create config).Sound := by
  simp only [HashedWaveletOctreeConfig.isValid, Bool.and_eq_true, decide_eq_true_eq] at hc
  exact ⟨hc.1.1, hc.2, hH, hc.1.2, List.nodup_nil, fun k b hk => by cases hk⟩

/-! ## The selection of blocks -/

end HashedWaveletOctree

theorem boxList_length (b : List (Int × Int)) : (boxList b).length = (b.map fun p => (p.2 - p.1 + 1).toNat).prod := by
  induction b with
  | nil => rfl
  | cons p b ih =>
    obtain ⟨lo, hi⟩ := p
    unfold boxList
    rw [List.length_flatMap]
    simp only [List.length_map, List.map_cons, List.prod_cons, ← ih]
    have : (intRange lo hi).length = (hi - lo + 1).toNat := by simp [intRange]
    rw [this]
    simp [List.map_const', Nat.mul_comm]

theorem gridIndices_spec (mn mx : Index 3) (hv : ∀ i, mn i ≤ mx i) :
    ∃ l, gridIndices mn mx = some l ∧ l.Nodup ∧ ∀ p, p ∈ l ↔ ∀ i, mn i ≤ p i ∧ p i ≤ mx i := by
  have hne : gridBounds mn mx ≠ [] := by
    unfold gridBounds; intro h; have := congrArg List.length h; simp at this
  have hv' : ∀ p ∈ gridBounds mn mx, p.1 ≤ p.2 := by
    intro p hp
    unfold gridBounds at hp
    rw [List.mem_ofFn] at hp
    obtain ⟨i, rfl⟩ := hp
    exact hv i
  have hvis := gridVisit_of_follows _ _ _ _ (follows_box _ hne hv') (fun t ht => by
    rintro rfl
    exact gridEnd_not_mem _ hne ((mem_boxList _ _).1 ht)) _ (le_of_eq (boxList_length (gridBounds mn mx)))
  have hof : ∀ t ∈ boxList (gridBounds mn mx), ∃ idx : Index 3, t = List.ofFn idx := by
    intro t ht
    have hl := inBounds_length _ _ ((mem_boxList _ _).1 ht)
    have hl' : t.length = 3 := by rw [hl]; simp [gridBounds]
    obtain ⟨a, b, c, rfl⟩ := List.length_eq_three.1 hl'
    exact ⟨![a, b, c], rfl⟩
  have hget : ∀ idx : Index 3, (fun i : Fin 3 => (List.ofFn idx).getD i.val 0) = idx := by
    intro idx
    funext i
    fin_cases i <;> rfl
  refine ⟨_, by unfold gridIndices; dsimp only; rw [hvis]; rfl, ?_, fun p => ?_⟩
  · refine (boxList_nodup _).map_on ?_
    intro x hx y hy hxy
    obtain ⟨ix, rfl⟩ := hof x hx
    obtain ⟨iy, rfl⟩ := hof y hy
    rw [hget, hget] at hxy
    rw [hxy]
  · rw [List.mem_map]
    constructor
    · rintro ⟨t, ht, rfl⟩
      obtain ⟨idx, rfl⟩ := hof t ht
      rw [hget]
      rwa [mem_boxList, inBounds_ofFn] at ht
    · intro hp
      exact ⟨List.ofFn p, by rwa [mem_boxList, inBounds_ofFn], hget p⟩

section
variable {scan : Scan} {worth : Index 3 → Bool}

theorem mem_blockSearch (H d : Nat) (j : Index 3) : ∀ n : NdtreeIndex 3, n.height = ((H + d : Nat) : Int) →
    (indexToBlockIndex H j ∈ blockSearch scan worth d n ↔
      indexAndHeightToNodeIndex j (H + d) = n ∧
      (∀ h, H ≤ h → h ≤ H + d → scan.updateType (indexAndHeightToNodeIndex j h) ≠ .fullyUnobserved) ∧
      (scan.updateType (indexAndHeightToNodeIndex j H) = .possiblyOccupied ∨
        worth (indexToBlockIndex H j) = true)) := by
  induction d with
  | zero =>
    intro n hn
    obtain ⟨nh, np⟩ := n
    rw [Nat.add_zero] at hn ⊢
    dsimp only at hn
    subst hn
    unfold blockSearch
    dsimp only
    have heq : ∀ np, indexAndHeightToNodeIndex j H = ⟨(H : Int), np⟩ ↔ indexToBlockIndex H j = np := by
      intro np
      constructor
      · intro h; exact congrArg NdtreeIndex.position h
      · rintro rfl; rfl
    have hall : ∀ P : Nat → Prop, (∀ h, H ≤ h → h ≤ H → P h) ↔ P H :=
      fun P => ⟨fun h => h H (le_refl _) (le_refl _), fun h k h1 h2 => by rwa [show k = H by omega]⟩
    rw [heq, hall fun h => scan.updateType (indexAndHeightToNodeIndex j h) ≠ .fullyUnobserved]
    by_cases he : indexToBlockIndex H j = np
    · subst he
      have hn : (⟨(H : Int), indexToBlockIndex H j⟩ : NdtreeIndex 3) = indexAndHeightToNodeIndex j H := rfl
      simp only [hn, true_and]
      by_cases h1 : scan.updateType (indexAndHeightToNodeIndex j H) = .fullyUnobserved
      · simp [h1]
      · rw [if_neg h1]
        by_cases h2 : scan.updateType (indexAndHeightToNodeIndex j H) = .possiblyOccupied
        · simp [h2]
        · rw [if_neg h2]
          by_cases h3 : worth (indexToBlockIndex H j) = true
          · rw [if_pos h3]; simp [h1, h3]
          · rw [if_neg h3]; simp [h2, h3]
    · simp only [he, false_and, iff_false]
      intro hmem
      split at hmem
      · cases hmem
      · split at hmem
        · exact he (List.mem_singleton.1 hmem)
        · split at hmem
          · exact he (List.mem_singleton.1 hmem)
          · cases hmem
  | succ d ih =>
    intro n hn
    unfold blockSearch
    by_cases h1 : scan.updateType n = .fullyUnobserved
    · rw [if_pos h1]
      constructor
      · intro h; cases h
      · rintro ⟨rfl, h2, _⟩
        exact absurd h1 (h2 (H + (d + 1)) (by omega) (le_refl _))
    · rw [if_neg h1, List.mem_flatMap]
      have hch := C02_child_indices n
      constructor
      · rintro ⟨c, hc, hm⟩
        have hcp : c.height = n.height - 1 ∧ c.computeParentIndex = n := by
          unfold computeChildIndices at hc
          rw [List.mem_map] at hc
          obtain ⟨x, hx, rfl⟩ := hc
          exact ⟨rfl, C02_parent_of_child n x⟩
        obtain ⟨e, h2, h3⟩ := (ih c (by rw [hcp.1, hn]; push_cast; ring)).1 hm
        have hj : indexAndHeightToNodeIndex j (H + (d + 1)) = n := by
          rw [← hcp.2, ← e, ancestor_parent]
          rfl
        refine ⟨hj, fun h ha hb => ?_, h3⟩
        by_cases hh : h = H + (d + 1)
        · rw [hh, hj]; exact h1
        · exact h2 h ha (by omega)
      · rintro ⟨rfl, h2, h3⟩
        refine ⟨indexAndHeightToNodeIndex j (H + d), ?_, (ih _ rfl).2 ⟨rfl, fun h ha hb => h2 h ha (by omega), h3⟩⟩
        unfold computeChildIndices
        rw [List.mem_map]
        refine ⟨(relFin (indexAndHeightToNodeIndex j (H + d))).val, List.mem_range.2 (relFin (indexAndHeightToNodeIndex j (H + d))).isLt, ?_⟩
        exact ancestor_child j (H + d)

theorem blockSearch_nodup (H d : Nat) : ∀ n : NdtreeIndex 3, n.height = ((H + d : Nat) : Int) →
    (blockSearch scan worth d n).Nodup := by
  induction d with
  | zero =>
    intro n _
    unfold blockSearch
    split
    · exact List.nodup_nil
    · split
      · exact List.nodup_singleton _
      · split
        · exact List.nodup_singleton _
        · exact List.nodup_nil
  | succ d ih =>
    intro n hn
    unfold blockSearch
    split
    · exact List.nodup_nil
    · have hh : ∀ c ∈ n.computeChildIndices, c.height = ((H + d : Nat) : Int) := by
        intro c hc
        unfold computeChildIndices at hc
        rw [List.mem_map] at hc
        obtain ⟨x, hx, rfl⟩ := hc
        show n.height - 1 = _
        rw [hn]; push_cast; ring
      rw [List.nodup_flatMap]
      refine ⟨fun c hc => ih c (hh c hc), ?_⟩
      have hnd : n.computeChildIndices.Nodup := by
        unfold computeChildIndices
        refine List.nodup_range.map_on ?_
        intro x hx y hy hxy
        exact (C02_children_distinct n n x y (List.mem_range.1 hx) (List.mem_range.1 hy) hxy).2
      refine hnd.imp_of_mem ?_
      intro a b ha hb hab k hka hkb
      have hk : k = indexToBlockIndex H (fun i => k i * 2 ^ H) := by
        funext i
        simp only [indexToBlockIndex, divExp2Floor_eq]
        rw [Int.mul_ediv_cancel _ (Int.ne_of_gt (two_pow_pos' H))]
      rw [hk] at hka hkb
      exact hab (((mem_blockSearch H d _ a (hh a ha)).1 hka).1.symm.trans ((mem_blockSearch H d _ b (hh b hb)).1 hkb).1)

theorem fov_height (config : HashedWaveletOctreeConfig) (scan : Scan) : config.treeHeight < (config.fovMinMax scan).1 := by
  have h : (config.fovMinMax scan).1 = (1 + max (Int.clog 2 (scan.maxRange / config.minCellWidth)) config.treeHeight).toNat := rfl
  have := le_max_right (Int.clog 2 (scan.maxRange / config.minCellWidth)) (config.treeHeight : Int)
  omega

theorem fov_le {config : HashedWaveletOctreeConfig} (hw : 0 < config.minCellWidth) (hr : 0 ≤ scan.maxRange) (i : Fin 3) : (config.fovMinMax scan).2.1 i ≤ (config.fovMinMax scan).2.2 i := by
  simp only [HashedWaveletOctreeConfig.fovMinMax, indexAndHeightToNodeIndex, divExp2Floor_eq, pointToFloorIndex, pointToCeilIndex, scaledPointToFloorIndex, scaledPointToCeilIndex]
  apply Int.ediv_le_ediv (two_pow_pos' _)
  have h1 : (scan.origin i - scan.maxRange) * (1 / config.minCellWidth) ≤ (scan.origin i + scan.maxRange) * (1 / config.minCellWidth) :=
    mul_le_mul_of_nonneg_right (by linarith) (by positivity)
  have h2 := Int.floor_le ((scan.origin i - scan.maxRange) * (1 / config.minCellWidth) - 1 / 2)
  have h3 := Int.le_ceil ((scan.origin i + scan.maxRange) * (1 / config.minCellWidth) - 1 / 2)
  have h4 : ⌊(scan.origin i - scan.maxRange) * (1 / config.minCellWidth) - 1 / 2⌋ ≤ ⌈(scan.origin i + scan.maxRange) * (1 / config.minCellWidth) - 1 / 2⌉ := by
    have : ((⌊(scan.origin i - scan.maxRange) * (1 / config.minCellWidth) - 1 / 2⌋ : Int) : ℚ) ≤
        ((⌈(scan.origin i + scan.maxRange) * (1 / config.minCellWidth) - 1 / 2⌉ : Int) : ℚ) := by linarith
    exact_mod_cast this
  omega

theorem blockJobs_spec {config : HashedWaveletOctreeConfig} (hw : 0 < config.minCellWidth) (hr : 0 ≤ scan.maxRange) (worth : Index 3 → Bool) :
    ∃ jobs, config.blockJobs scan worth = some jobs ∧ jobs.Nodup ∧ ∀ j, indexToBlockIndex config.treeHeight j ∈ jobs ↔
      (∀ i, (config.fovMinMax scan).2.1 i ≤ (indexAndHeightToNodeIndex j (config.fovMinMax scan).1).position i ∧
        (indexAndHeightToNodeIndex j (config.fovMinMax scan).1).position i ≤ (config.fovMinMax scan).2.2 i) ∧
      (∀ h, config.treeHeight ≤ h → h ≤ (config.fovMinMax scan).1 → scan.updateType (indexAndHeightToNodeIndex j h) ≠ .fullyUnobserved) ∧
      (scan.updateType (indexAndHeightToNodeIndex j config.treeHeight) = .possiblyOccupied ∨ worth (indexToBlockIndex config.treeHeight j) = true) := by
  obtain ⟨l, hl, hnd, hmem⟩ := gridIndices_spec _ _ (fov_le (scan := scan) hw hr)
  have htop := fov_height config scan
  refine ⟨_, by unfold HashedWaveletOctreeConfig.blockJobs; dsimp only; rw [hl]; rfl, ?_, fun j => ?_⟩
  · rw [List.nodup_flatMap]
    refine ⟨fun p hp => blockSearch_nodup config.treeHeight _ _ (by rw [Nat.add_sub_of_le (le_of_lt htop)]), hnd.imp_of_mem ?_⟩
    intro a b ha hb hab k hka hkb
    have hk : k = indexToBlockIndex config.treeHeight (fun i => k i * 2 ^ config.treeHeight) := by
      funext i
      simp only [indexToBlockIndex, divExp2Floor_eq]
      rw [Int.mul_ediv_cancel _ (Int.ne_of_gt (two_pow_pos' _))]
    rw [hk] at hka hkb
    have h1 := ((mem_blockSearch _ _ _ _ (by rw [Nat.add_sub_of_le (le_of_lt htop)])).1 hka).1
    have h2 := ((mem_blockSearch _ _ _ _ (by rw [Nat.add_sub_of_le (le_of_lt htop)])).1 hkb).1
    exact hab (congrArg NdtreeIndex.position (h1.symm.trans h2))
  · rw [List.mem_flatMap]
    constructor
    · rintro ⟨p, hp, hk⟩
      obtain ⟨e, h1, h2⟩ := (mem_blockSearch _ _ _ _ (by rw [Nat.add_sub_of_le (le_of_lt htop)])).1 hk
      rw [Nat.add_sub_of_le (le_of_lt htop)] at e h1
      refine ⟨?_, h1, h2⟩
      rw [e]
      exact (hmem p).1 hp
    · rintro ⟨h0, h1, h2⟩
      refine ⟨_, (hmem _).2 h0, (mem_blockSearch _ _ _ _ (by rw [Nat.add_sub_of_le (le_of_lt htop)])).2 ⟨?_, ?_, h2⟩⟩
      · rw [Nat.add_sub_of_le (le_of_lt htop)]
        rfl
      · rw [Nat.add_sub_of_le (le_of_lt htop)]
        exact h1

end

namespace HashedWaveletOctree
variable {m : HashedWaveletOctree} {scan : Scan}

theorem worthUpdating_iff (m : HashedWaveletOctree) (k : Index 3) : m.worthUpdating k = true ↔
    ∃ b, m.blocks.getBlock k = some b ∧ m.config.minLogOdds + noiseThreshold / 10 ≤ b.rootScale := by
  unfold worthUpdating
  cases m.blocks.getBlock k <;> simp

theorem Sound.selected_iff (h : m.Sound) (j : Index 3) :
    m.Selected scan j ↔
      (∀ i, (m.config.fovMinMax scan).2.1 i ≤ (indexAndHeightToNodeIndex j (m.config.fovMinMax scan).1).position i ∧
        (indexAndHeightToNodeIndex j (m.config.fovMinMax scan).1).position i ≤ (m.config.fovMinMax scan).2.2 i) ∧
      (∀ h, m.config.treeHeight ≤ h → h ≤ (m.config.fovMinMax scan).1 → scan.updateType (indexAndHeightToNodeIndex j h) ≠ .fullyUnobserved) ∧
      (scan.updateType (indexAndHeightToNodeIndex j m.config.treeHeight) = .possiblyOccupied ∨
        ∃ b, m.blocks.getBlock (indexToBlockIndex m.config.treeHeight j) = some b ∧ m.config.minLogOdds + noiseThreshold / 10 ≤ b.rootScale) := by
  unfold Selected
  dsimp only
  rw [allocated_iff, node_value h.le h.heights j _ (le_refl _), Nat.sub_self, List.take_zero]
  cases e : m.blocks.getBlock (indexToBlockIndex m.config.treeHeight j) with
  | none => simp
  | some b =>
    dsimp only
    rw [WTree.getValue_nil_path]
    simp

theorem Sound.blocksToUpdate (h : m.Sound) (hr : 0 ≤ scan.maxRange) : ∃ jobs, m.blocksToUpdate scan = some jobs ∧ jobs.Nodup ∧
    ∀ j, indexToBlockIndex m.config.treeHeight j ∈ jobs ↔ m.Selected scan j := by
  obtain ⟨jobs, h1, h2, h3⟩ := blockJobs_spec (scan := scan) h.width hr m.worthUpdating
  refine ⟨jobs, h1, h2, fun j => ?_⟩
  rw [h3, h.selected_iff, worthUpdating_iff]

/-! ## The map after the tasks -/

theorem alloc_fold (now : ℚ) (jobs : List (Index 3)) : ∀ m : HashedWaveletOctree,
    (jobs.foldl (fun m k => m.getOrAllocateBlock k now) m).config = m.config ∧
    (m.blocks.keys.Nodup → (jobs.foldl (fun m k => m.getOrAllocateBlock k now) m).blocks.keys.Nodup) ∧
    ∀ k, (jobs.foldl (fun m k => m.getOrAllocateBlock k now) m).blocks.getBlock k =
      if k ∈ jobs then some ((m.blocks.getBlock k).getD (.create m.config.treeHeight m.config.minLogOdds m.config.maxLogOdds now))
      else m.blocks.getBlock k := by
  induction jobs with
  | nil => intro m; exact ⟨rfl, id, fun k => by simp⟩
  | cons a jobs ih =>
    intro m
    rw [List.foldl_cons]
    obtain ⟨h1, h2, h3⟩ := ih (m.getOrAllocateBlock a now)
    refine ⟨h1, fun hn => h2 (SpatialHash.keys_getOrAllocate _ _ _ hn), fun k => ?_⟩
    rw [h3]
    have hg : (m.getOrAllocateBlock a now).blocks.getBlock k = if k = a then
        some ((m.blocks.getBlock a).getD (.create m.config.treeHeight m.config.minLogOdds m.config.maxLogOdds now)) else m.blocks.getBlock k :=
      SpatialHash.getBlock_getOrAllocate _ _ _ _
    have hcfg : (m.getOrAllocateBlock a now).config = m.config := rfl
    rw [hg, hcfg]
    by_cases hka : k = a
    · subst hka; simp
    · simp [hka]

theorem task_fold {config : HashedWaveletOctreeConfig} (hw : 0 < config.minCellWidth) (hpos : 0 < config.treeHeight) (stamp : Index 3 → ℚ)
    (l : List (Index 3)) : l.Nodup → ∀ m : HashedWaveletOctree, m.config = config →
    (∀ k ∈ l, ∃ b, m.blocks.getBlock k = some b ∧ b.root ≠ .nil) →
    ∃ m', l.foldlM (updateTask scan stamp) m = some m' ∧ m'.config = config ∧ m'.blocks.keys = m.blocks.keys ∧
      ∀ k, m'.blocks.getBlock k = if k ∈ l then (m.blocks.getBlock k).map fun b => b.updated scan config k (stamp k) else m.blocks.getBlock k := by
  induction l with
  | nil => intro _ m hm _; exact ⟨m, rfl, hm, rfl, fun k => by simp⟩
  | cons a l ih =>
    intro hl m hm hb
    rw [List.nodup_cons] at hl
    obtain ⟨b, hba, hr⟩ := hb a (List.mem_cons_self ..)
    have hstep : updateTask scan stamp m a = some { m with blocks := m.blocks.modifyBlock a fun _ => b.updated scan config a (stamp a) } := by
      unfold updateTask
      rw [hba]
      dsimp only
      rw [hm, WaveletBlock.update_eq hw hpos hr]
      rfl
    have hg : ∀ k, (m.blocks.modifyBlock a fun _ => b.updated scan config a (stamp a)).getBlock k =
        if k = a then some (b.updated scan config a (stamp a)) else m.blocks.getBlock k := by
      intro k
      rw [SpatialHash.getBlock_modify, hba]
      rfl
    obtain ⟨m', h1, h2, h3, h4⟩ := ih hl.2 { m with blocks := m.blocks.modifyBlock a fun _ => b.updated scan config a (stamp a) } hm (by
      intro k hk
      dsimp only
      rw [hg]
      split
      · exact ⟨_, rfl, updNode_ne_nil _ hr _ _ _⟩
      · exact hb k (List.mem_cons_of_mem _ hk))
    refine ⟨m', ?_, h2, ?_, fun k => ?_⟩
    · rw [List.foldlM_cons, hstep]; exact h1
    · rw [h3]
      show (m.blocks.modifyBlock a fun _ => b.updated scan config a (stamp a)).keys = _
      exact SpatialHash.keys_modify _ _ _
    · rw [h4]
      dsimp only
      rw [hg]
      by_cases hka : k = a
      · subst hka; simp [hl.1, hba]
      · simp [hka]

/-- The whole update: which blocks change, and to what. -/
theorem Sound.updateMap (h : m.Sound) (hr : 0 ≤ scan.maxRange) (schedule : List (Index 3) → List (Index 3)) (hs : ∀ l, (schedule l).Perm l)
    (now : ℚ) (stamp : Index 3 → ℚ) :
    ∃ (m' : HashedWaveletOctree) (jobs : List (Index 3)), m.updateMap scan schedule now stamp = some m' ∧ m'.Sound ∧ m'.config = m.config ∧
      (∀ j, indexToBlockIndex m.config.treeHeight j ∈ jobs ↔ m.Selected scan j) ∧
      ∀ k, m'.blocks.getBlock k = if k ∈ jobs then
        some (((m.blocks.getBlock k).getD (.create m.config.treeHeight m.config.minLogOdds m.config.maxLogOdds now)).updated scan m.config k (stamp k))
        else m.blocks.getBlock k := by
  obtain ⟨jobs, hj, hnd, hmem⟩ := h.blocksToUpdate hr
  obtain ⟨a1, a2, a3⟩ := alloc_fold now jobs m
  obtain ⟨m', h1, h2, h3, h4⟩ := task_fold (scan := scan) h.width h.pos stamp (schedule jobs) ((hs jobs).nodup_iff.2 hnd)
    (jobs.foldl (fun m k => m.getOrAllocateBlock k now) m) a1 (by
      intro k hk
      rw [a3, if_pos ((hs jobs).mem_iff.1 hk)]
      exact ⟨_, rfl, (h.getD k now).root⟩)
  have hget : ∀ k, m'.blocks.getBlock k = if k ∈ jobs then
        some (((m.blocks.getBlock k).getD (.create m.config.treeHeight m.config.minLogOdds m.config.maxLogOdds now)).updated scan m.config k (stamp k))
        else m.blocks.getBlock k := by
    intro k
    rw [h4, a3]
    by_cases hk : k ∈ jobs
    · rw [if_pos ((hs jobs).mem_iff.2 hk), if_pos hk, if_pos hk]; rfl
    · rw [if_neg (fun e => hk ((hs jobs).mem_iff.1 e)), if_neg hk, if_neg hk]
  refine ⟨m', jobs, ?_, ?_, h2, hmem, hget⟩
  · unfold HashedWaveletOctree.updateMap
    rw [hj]
    exact h1
  · refine ⟨by rw [h2]; exact h.width, by rw [h2]; exact h.pos, by rw [h2]; exact h.le, by rw [h2]; exact h.bounds, by rw [h3]; exact a2 h.nodup, ?_⟩
    intro k b hb
    rw [hget] at hb
    rw [h2]
    split at hb
    · injection hb with hb
      subst hb
      exact (h.getD k now).updated h.width k _
    · exact h.fits k b hb

theorem Sound.step (h : m.Sound) (o : MappingOp) (ho : o.Valid) : ∃ m', o.run m = some m' ∧ m'.Sound ∧ m'.config = m.config := by
  cases o with
  | op o => exact ⟨_, rfl, h.run o, run_config m o⟩
  | integrate scan schedule now stamp =>
    obtain ⟨m', _, h1, h2, h3, _⟩ := h.updateMap ho.1 schedule ho.2 now stamp
    exact ⟨m', h1, h2, h3⟩

theorem Sound.steps (ops : List MappingOp) (ho : ∀ o ∈ ops, o.Valid) : ∀ m : HashedWaveletOctree, m.Sound →
    ∃ m', ops.foldlM MappingOp.run m = some m' ∧ m'.Sound ∧ m'.config = m.config := by
  induction ops with
  | nil => intro m h; exact ⟨m, rfl, h, rfl⟩
  | cons o ops ih =>
    intro m h
    obtain ⟨m1, h1, h2, h3⟩ := h.step o (ho o (List.mem_cons_self ..))
    obtain ⟨m2, h4, h5, h6⟩ := ih (fun o ho' => ho o (List.mem_cons_of_mem _ ho')) m1 h2
    exact ⟨m2, by rw [List.foldlM_cons, h1]; exact h4, h5, by rw [h6, h3]⟩

theorem Mapped.sound (h : m.Mapped) : m.Sound := by
  obtain ⟨config, hc, hH, ops, ho, hm⟩ := h
  obtain ⟨m', h1, h2, _⟩ := Sound.steps ops ho _ (Sound.create hc hH)
  rw [hm] at h1
  injection h1 with h1
  rw [h1]; exact h2

/-! ## The values -/

theorem exists_stop (P : Nat → Prop) (h0 : ¬ P 0) (H : Nat) (hpos : 0 < H) : ∃ s, s < H ∧ (∀ k, s < k → k < H → P k) ∧ ¬ P s := by
  induction H with
  | zero => omega
  | succ H ih =>
    by_cases hH : P H
    · have : 0 < H := by
        rcases Nat.eq_zero_or_pos H with rfl | h
        · exact absurd hH h0
        · exact h
      obtain ⟨s, h1, h2, h3⟩ := ih this
      refine ⟨s, by omega, fun k ha hb => ?_, h3⟩
      by_cases hk : k = H
      · rw [hk]; exact hH
      · exact h2 k ha (by omega)
    · exact ⟨H, by omega, fun k ha hb => by omega, hH⟩

end HashedWaveletOctree

theorem childAction_refine {scan : Scan} {lo hi : ℚ} {T : Int} (node : WTree) (n : NdtreeIndex 3) (v : ℚ) :
    childAction scan lo hi T node n v = .refine ↔ T < n.height ∧ scan.updateType n ≠ .fullyUnobserved ∧
      (scan.updateType n = .possiblyOccupied ∨ lo + noiseThreshold / 10 ≤ v) ∧ scan.coarseEnough (scan.updateType n) n = false := by
  unfold childAction
  dsimp only
  by_cases h1 : n.height ≤ T
  · rw [if_pos h1]; simp [not_lt.2 h1]
  · rw [if_neg h1]
    by_cases h2 : scan.updateType n = .fullyUnobserved
    · rw [if_pos h2]; simp [h2]
    · rw [if_neg h2]
      by_cases h3 : scan.updateType n ≠ .possiblyOccupied ∧ v < lo + noiseThreshold / 10
      · rw [if_pos h3]
        simp only [reduceCtorEq, false_iff]
        rintro ⟨_, _, h, _⟩
        rcases h with h | h
        · exact h3.1 h
        · linarith [h3.2]
      · rw [if_neg h3]
        have h3' : scan.updateType n = .possiblyOccupied ∨ lo + noiseThreshold / 10 ≤ v := by
          by_contra hc
          rw [not_or, not_le] at hc
          exact h3 hc
        by_cases h4 : scan.coarseEnough (scan.updateType n) n = true
        · rw [if_pos h4]
          split <;> simp [h4]
        · rw [if_neg h4]
          simp only [true_iff]
          exact ⟨not_le.1 h1, h2, h3', by simpa using h4⟩

/-- What is done at a node that is not refined. -/
theorem childAction_stop {scan : Scan} {lo hi : ℚ} {T : Int} (node : WTree) (n : NdtreeIndex 3) (v : ℚ)
    (hn : childAction scan lo hi T node n v ≠ .refine) :
    childAction scan lo hi T node n v =
      if T < n.height ∧ (scan.updateType n = .fullyUnobserved ∨ (scan.updateType n ≠ .possiblyOccupied ∧ v < lo + noiseThreshold / 10)) then .keep
      else if T < n.height ∧ node.hasAtLeastOneChild = true then .assign (scan.sample n + v) true
      else .assign (clamp (lo - noiseThreshold) (hi + noiseThreshold) (scan.sample n + v)) false := by
  unfold childAction at hn ⊢
  dsimp only at hn ⊢
  by_cases h1 : n.height ≤ T
  · rw [if_pos h1, if_neg (fun h => absurd h.1 (not_lt.2 h1)), if_neg (fun h => absurd h.1 (not_lt.2 h1))]
  · rw [if_neg h1] at hn ⊢
    have h1' := not_le.1 h1
    by_cases h2 : scan.updateType n = .fullyUnobserved
    · rw [if_pos h2, if_pos ⟨h1', Or.inl h2⟩]
    · rw [if_neg h2] at hn ⊢
      by_cases h3 : scan.updateType n ≠ .possiblyOccupied ∧ v < lo + noiseThreshold / 10
      · rw [if_pos h3, if_pos ⟨h1', Or.inr h3⟩]
      · rw [if_neg h3] at hn ⊢
        have hk : ¬ (T < n.height ∧ (scan.updateType n = .fullyUnobserved ∨ (scan.updateType n ≠ .possiblyOccupied ∧ v < lo + noiseThreshold / 10))) :=
          fun h => h.2.elim h2 h3
        rw [if_neg hk]
        by_cases h4 : scan.coarseEnough (scan.updateType n) n = true
        · rw [if_pos h4]
          by_cases h5 : node.hasAtLeastOneChild = true
          · have h6 : node.isNil = false := by cases node <;> simp_all [NTree.hasAtLeastOneChild, NTree.isNil, NTree.child]
            simp [h1', h5, h6]
          · simp [h5]
        · rw [if_neg h4] at hn
          exact absurd rfl hn

namespace HashedWaveletOctree
variable {m : HashedWaveletOctree} {scan : Scan}

/-- The block of a cell, or the one that is allocated for it. -/
theorem Sound.node_value' (h : m.Sound) (now : ℚ) (j : Index 3) (k : Nat) (hk : k ≤ m.config.treeHeight) :
    m.getNodeValue (indexAndHeightToNodeIndex j k) =
      WTree.getValue ((m.blocks.getBlock (indexToBlockIndex m.config.treeHeight j)).getD
          (.create m.config.treeHeight m.config.minLogOdds m.config.maxLogOdds now)).root
        ((m.blocks.getBlock (indexToBlockIndex m.config.treeHeight j)).getD
          (.create m.config.treeHeight m.config.minLogOdds m.config.maxLogOdds now)).rootScale
        ((cellPath m.config.treeHeight j).take (m.config.treeHeight - k)) := by
  rw [node_value h.le h.heights j k hk]
  cases e : m.blocks.getBlock (indexToBlockIndex m.config.treeHeight j) with
  | some b => rfl
  | none =>
    simp only [Option.getD_none, WaveletBlock.create]
    cases (cellPath m.config.treeHeight j).take (m.config.treeHeight - k) with
    | nil => rfl
    | cons c q =>
      rw [WTree.getValue_cons _ (by simp), child_leaf, WTree.getValue_nil]
      exact (bwd_single_const 0 c).symm

theorem Sound.hasFiner' (_h : m.Sound) (now : ℚ) (j : Index 3) (k : Nat) (hk : k < m.config.treeHeight) :
    m.HasFiner j k ↔ (NTree.descend ((m.blocks.getBlock (indexToBlockIndex m.config.treeHeight j)).getD
          (.create m.config.treeHeight m.config.minLogOdds m.config.maxLogOdds now)).root
        ((cellPath m.config.treeHeight j).take (m.config.treeHeight - k))).hasAtLeastOneChild = true := by
  unfold HasFiner
  cases e : m.blocks.getBlock (indexToBlockIndex m.config.treeHeight j) with
  | some b => simp
  | none =>
    simp only [Option.getD_none, WaveletBlock.create, reduceCtorEq, false_and, exists_false, false_iff]
    have hlen : ((cellPath m.config.treeHeight j).take (m.config.treeHeight - k)).length = m.config.treeHeight - k := by
      rw [List.length_take, cellPath_length]; omega
    cases e2 : (cellPath m.config.treeHeight j).take (m.config.treeHeight - k) with
    | nil => rw [e2] at hlen; simp at hlen; omega
    | cons c q =>
      rw [descend_cons, child_leaf, nil_descend]
      simp [NTree.hasAtLeastOneChild, NTree.hasChildrenArray]

/-- The value of a cell of an updated block. -/
theorem Sound.cell_updated (h : m.Sound) (j : Index 3) (now stamp : ℚ) (s : Nat) (hs : m.StopsAt scan j s) :
    WTree.getValue
      (((m.blocks.getBlock (indexToBlockIndex m.config.treeHeight j)).getD
        (.create m.config.treeHeight m.config.minLogOdds m.config.maxLogOdds now)).updated scan m.config (indexToBlockIndex m.config.treeHeight j) stamp).root
      (((m.blocks.getBlock (indexToBlockIndex m.config.treeHeight j)).getD
        (.create m.config.treeHeight m.config.minLogOdds m.config.maxLogOdds now)).updated scan m.config (indexToBlockIndex m.config.treeHeight j) stamp).rootScale
      (cellPath m.config.treeHeight j) = m.getCellValue j + m.ScanChange scan j s ∧
    (¬ m.Skipped scan j s → scan.terminationHeight m.config.minCellWidth < s → m.HasFiner j s →
      (((m.blocks.getBlock (indexToBlockIndex m.config.treeHeight j)).getD
        (.create m.config.treeHeight m.config.minLogOdds m.config.maxLogOdds now)).updated scan m.config
          (indexToBlockIndex m.config.treeHeight j) stamp).needsThresholding = true) := by
  obtain ⟨hsH, href, hstop⟩ := hs
  have hV := h.node_value' now j
  have hF := h.hasFiner' now j s hsH
  have hfit := h.getD (indexToBlockIndex m.config.treeHeight j) now
  have hcell : m.getCellValue j = m.getNodeValue (indexAndHeightToNodeIndex j 0) := by
    have h0 : indexAndHeightToNodeIndex j 0 = ⟨0, j⟩ := by
      unfold indexAndHeightToNodeIndex; congr 1; funext k; simp [divExp2Floor_eq]
    rw [cell_value h.le h.heights, node_value h.le h.heights j 0 (Nat.zero_le _), Nat.sub_zero, List.take_of_length_le (by rw [cellPath_length])]
  have hV0 := hV 0 (Nat.zero_le _)
  rw [Nat.sub_zero, List.take_of_length_le (by rw [cellPath_length])] at hV0
  rw [hcell]
  unfold ScanChange
  unfold Refines at href hstop
  unfold Skipped
  dsimp only at href hstop ⊢
  simp only [hF]
  have hVs := hV s (le_of_lt hsH)
  generalize hb : (m.blocks.getBlock (indexToBlockIndex m.config.treeHeight j)).getD
    (.create m.config.treeHeight m.config.minLogOdds m.config.maxLogOdds now) = b at *
  have hn : (⟨(m.config.treeHeight : Int), indexToBlockIndex m.config.treeHeight j⟩ : NdtreeIndex 3) =
    indexAndHeightToNodeIndex j m.config.treeHeight := rfl
  have hre : ∀ k, s < k → k < m.config.treeHeight →
      childAction scan m.config.minLogOdds m.config.maxLogOdds (scan.terminationHeight m.config.minCellWidth)
        (b.root.descend ((cellPath m.config.treeHeight j).take (m.config.treeHeight - k))) (indexAndHeightToNodeIndex j k)
        (b.root.getValue b.rootScale ((cellPath m.config.treeHeight j).take (m.config.treeHeight - k))) = .refine := by
    intro k h1 h2
    have := href k h1 h2
    rw [hV k (le_of_lt h2)] at this
    exact (childAction_refine _ _ _).2 this
  have hst : childAction scan m.config.minLogOdds m.config.maxLogOdds (scan.terminationHeight m.config.minCellWidth)
        (b.root.descend ((cellPath m.config.treeHeight j).take (m.config.treeHeight - s))) (indexAndHeightToNodeIndex j s)
        (b.root.getValue b.rootScale ((cellPath m.config.treeHeight j).take (m.config.treeHeight - s))) ≠ .refine := by
    intro hc
    rw [hVs] at hstop
    exact hstop ((childAction_refine _ _ _).1 hc)
  have hact := childAction_stop _ _ _ hst
  obtain ⟨c1, c2⟩ := updNode_cell j s m.config.treeHeight b.root b.rootScale b.needsThresholding hfit.root hsH hre
  have hmk := updNode_marks j s m.config.treeHeight b.root b.rootScale b.needsThresholding hfit.root hsH hre
  rw [← hV0, ← hVs] at c1 c2
  rw [← hVs] at hact hmk
  have hheight : (indexAndHeightToNodeIndex j s).height = (s : Int) := rfl
  rw [hheight] at hact
  unfold WaveletBlock.updated
  rw [hn]
  dsimp only
  refine ⟨?_, fun hk ht hf => ?_⟩
  · split
    · rename_i hsk
      rw [if_pos hsk] at hact
      rw [c2 hact, add_zero]
    · rename_i hsk
      rw [if_neg hsk] at hact
      split
      · rename_i hf
        rw [if_pos hf] at hact
        rw [c1 _ _ hact]
        ring
      · rename_i hf
        rw [if_neg hf] at hact
        rw [c1 _ _ hact]
  · rw [if_neg hk, if_pos ⟨ht, hf⟩] at hact
    exact hmk ⟨_, hact⟩

theorem Sound.getCellValue_eq (h : m.Sound) (i : Index 3) :
    m.getCellValue i = match m.blocks.getBlock (indexToBlockIndex m.config.treeHeight i) with
      | none => 0
      | some b => b.val i := by
  rw [cell_value h.le h.heights]
  cases e : m.blocks.getBlock (indexToBlockIndex m.config.treeHeight i) with
  | none => rfl
  | some b =>
    dsimp only
    unfold WaveletBlock.val
    rw [h.heights _ _ e]

end HashedWaveletOctree

theorem HashedWaveletOctree.Sound.node_mean {m : HashedWaveletOctree} (h : m.Sound) (n : NdtreeIndex 3) (h0 : 0 ≤ n.height)
    (h1 : n.height ≤ m.config.treeHeight) :
    m.getNodeValue n = boxMean m.getCellValue n.height.toNat fun k => n.position k * 2 ^ n.height.toNat := by
  obtain ⟨a, ha⟩ : ∃ a : Nat, a + n.height.toNat = m.config.treeHeight := ⟨m.config.treeHeight - n.height.toNat, by omega⟩
  have e1 : ((m.config.treeHeight : Int) - n.height).toNat = a := by omega
  have hpow : (2 : Int) ^ m.config.treeHeight = 2 ^ a * 2 ^ n.height.toNat := by rw [← ha, Int.pow_add]
  have hpw := two_pow_pos' n.height.toNat
  have hpa := two_pow_pos' a
  have hcell : m.nodeToCellIndex n = ⟨n.height, fun k => n.position k % 2 ^ a⟩ := by
    unfold HashedWaveletOctree.nodeToCellIndex
    rw [e1]; congr 1; funext k
    exact divExp2FloorRemainder_eq _ _ (by have := h.le; omega)
  have hblk : ∀ k, m.nodeToBlockIndex n k = n.position k / 2 ^ a := by
    intro k
    simp only [HashedWaveletOctree.nodeToBlockIndex, indexToBlockIndex, nodeIndexToMinCornerIndex, divExp2Floor_eq,
      multExp2_eq, hpow]
    exact Int.mul_ediv_mul_of_pos_left _ _ hpw
  have hin : ∀ j, InBox n.height.toNat (fun k => n.position k * 2 ^ n.height.toNat) j →
      indexToBlockIndex m.config.treeHeight j = m.nodeToBlockIndex n := by
    intro j hj
    funext k
    rw [hblk]
    simp only [indexToBlockIndex, divExp2Floor_eq, hpow]
    rw [Int.mul_comm (2 ^ a), ← Int.ediv_ediv_of_nonneg (Int.le_of_lt hpw)]
    congr 1
    have hk := hj k
    rw [Int.ediv_eq_iff_of_pos hpw]
    constructor
    · nlinarith
    · nlinarith
  unfold HashedWaveletOctree.getNodeValue
  cases e : m.blocks.getBlock (m.nodeToBlockIndex n) with
  | none =>
    dsimp only
    rw [boxMean_congr (g := fun _ => 0), boxMean_const]
    intro j hj
    rw [h.getCellValue_eq, hin j hj, e]
  | some b =>
    dsimp only
    have hb := h.fits _ _ e
    rw [hcell]
    unfold WaveletBlock.getCellValue
    have hrep := WaveletBlock.represents hb.root (by rw [hb.height]; exact h.le)
    have hnode := Represents.node (by rw [hb.height]; exact h.le) hrep ⟨n.height, fun k => n.position k % 2 ^ a⟩
      ⟨h0, by simp only; rw [hb.height]; omega, fun k => by
        simp only
        have : b.treeHeight - n.height.toNat = a := by rw [hb.height]; omega
        rw [this]
        exact ⟨Int.emod_nonneg _ (Int.ne_of_gt hpa), Int.emod_lt_of_pos _ hpa⟩⟩
    rw [hnode]
    dsimp only
    have hper : b.val = fun j => b.val (fun k => j k - (2 ^ b.treeHeight * -(n.position k / 2 ^ a))) := by
      funext j
      rw [← b.val_periodic j (fun k => n.position k / 2 ^ a)]
      congr 1; funext k; ring
    have hcongr : boxMean m.getCellValue n.height.toNat (fun k => n.position k * 2 ^ n.height.toNat)
        = boxMean b.val n.height.toNat (fun k => n.position k * 2 ^ n.height.toNat) := by
      apply boxMean_congr
      intro j hj
      rw [h.getCellValue_eq, hin j hj, e]
    rw [hcongr]
    conv => lhs; rw [hper]
    rw [boxMean_shift]
    congr 1
    funext k
    rw [hb.height, hpow]
    have := Int.emod_add_mul_ediv (n.position k) (2 ^ a)
    generalize n.position k % 2 ^ a = r at *
    generalize n.position k / 2 ^ a = q at *
    rw [← this]; ring

/-! ## Theorems -/

/-- Any sequence of operations and measurements completes: each block update ends, and so does the search for blocks. -/
theorem C44_terminates (config : HashedWaveletOctreeConfig) (hc : config.isValid = true) (hH : config.treeHeight ≤ 20) (ops : List MappingOp)
    (ho : ∀ o ∈ ops, o.Valid) : ∃ m, ops.foldlM MappingOp.run (HashedWaveletOctree.create config) = some m ∧ m.config = config := by
  obtain ⟨m, h1, _, h2⟩ := HashedWaveletOctree.Sound.steps ops ho _ (HashedWaveletOctree.Sound.create hc hH)
  exact ⟨m, h1, h2⟩

/-- C44: integrating a measurement changes the cells of the selected blocks by exactly the update of the node that the search stops at, and no
other cell. -/
theorem C44_hashed_cells (m : HashedWaveletOctree) (hm : m.Mapped) (scan : Scan) (hr : 0 ≤ scan.maxRange)
    (schedule : List (Index 3) → List (Index 3)) (hs : ∀ l, (schedule l).Perm l) (now : ℚ) (stamp : Index 3 → ℚ) :
    ∃ m', m.updateMap scan schedule now stamp = some m' ∧ ∀ j,
      (m.Selected scan j → ∃ s, m.StopsAt scan j s ∧ m'.getCellValue j = m.getCellValue j + m.ScanChange scan j s) ∧
      (¬ m.Selected scan j → m'.getCellValue j = m.getCellValue j) := by
  have h := hm.sound
  obtain ⟨m', jobs, h1, h2, h3, h4, h5⟩ := h.updateMap hr schedule hs now stamp
  refine ⟨m', h1, fun j => ⟨fun hsel => ?_, fun hsel => ?_⟩⟩
  · obtain ⟨s, s1, s2, s3⟩ := HashedWaveletOctree.exists_stop (m.Refines scan j) (by
      unfold HashedWaveletOctree.Refines
      intro hc
      exact absurd hc.1 (not_lt.2 (scan.terminationHeight_nonneg _ h.width))) m.config.treeHeight h.pos
    refine ⟨s, ⟨s1, s2, s3⟩, ?_⟩
    rw [HashedWaveletOctree.cell_value h2.le h2.heights, h3, h5, if_pos ((h4 j).2 hsel)]
    exact (h.cell_updated j now _ s ⟨s1, s2, s3⟩).1
  · rw [HashedWaveletOctree.cell_value h2.le h2.heights, h3, h5, if_neg (fun e => hsel ((h4 j).1 e)), HashedWaveletOctree.cell_value h.le h.heights]

/-- The node that the search stops at is determined by the map and the measurement. -/
theorem C44_stop_unique (m : HashedWaveletOctree) (scan : Scan) (j : Index 3) (s s' : Nat) (h : m.StopsAt scan j s) (h' : m.StopsAt scan j s') : s = s' := by
  rcases Nat.lt_trichotomy s s' with hlt | heq | hlt
  · exact absurd (h.2.1 s' hlt h'.1) h'.2.2
  · exact heq
  · exact absurd (h'.2.1 s hlt h.1) h.2.2

/-- Blocks that are not selected do not change at all; selected blocks exist afterwards, have the time of their update as their stamp, will be visited by the
next pruning, and are marked for thresholding if an unclamped update was applied in them. -/
theorem C44_hashed_blocks (m : HashedWaveletOctree) (hm : m.Mapped) (scan : Scan) (hr : 0 ≤ scan.maxRange)
    (schedule : List (Index 3) → List (Index 3)) (hs : ∀ l, (schedule l).Perm l) (now : ℚ) (stamp : Index 3 → ℚ) :
    ∃ m', m.updateMap scan schedule now stamp = some m' ∧ m'.config = m.config ∧ ∀ j k, InBlock m.config.treeHeight k j →
      (¬ m.Selected scan j → m'.blocks.getBlock k = m.blocks.getBlock k) ∧
      (m.Selected scan j → ∃ b, m'.blocks.getBlock k = some b ∧ b.lastUpdated = stamp k ∧ b.needsPruning = true ∧
        (∀ s, m.StopsAt scan j s → ¬ m.Skipped scan j s → scan.terminationHeight m.config.minCellWidth < s → m.HasFiner j s →
          b.needsThresholding = true)) := by
  have h := hm.sound
  obtain ⟨m', jobs, h1, h2, h3, h4, h5⟩ := h.updateMap hr schedule hs now stamp
  refine ⟨m', h1, h3, fun j k hk => ?_⟩
  rw [inBlock_iff] at hk
  subst hk
  refine ⟨fun hsel => ?_, fun hsel => ?_⟩
  · rw [h5, if_neg (fun e => hsel ((h4 j).1 e))]
  · rw [h5, if_pos ((h4 j).2 hsel)]
    exact ⟨_, rfl, rfl, rfl, fun s hst => (h.cell_updated j now _ s hst).2⟩

/-- The order in which the thread pool runs the tasks has no effect. -/
theorem C44_schedule_independent (m : HashedWaveletOctree) (hm : m.Mapped) (scan : Scan) (hr : 0 ≤ scan.maxRange)
    (s s' : List (Index 3) → List (Index 3)) (hs : ∀ l, (s l).Perm l) (hs' : ∀ l, (s' l).Perm l) (now : ℚ) (stamp : Index 3 → ℚ) :
    ∃ m₁ m₂, m.updateMap scan s now stamp = some m₁ ∧ m.updateMap scan s' now stamp = some m₂ ∧
      ∀ k, m₁.blocks.getBlock k = m₂.blocks.getBlock k := by
  have h := hm.sound
  obtain ⟨m₁, jobs, h1, h2, h3, h4, h5⟩ := h.updateMap hr s hs now stamp
  obtain ⟨m₂, jobs', i1, i2, i3, i4, i5⟩ := h.updateMap hr s' hs' now stamp
  refine ⟨m₁, m₂, h1, i1, fun k => ?_⟩
  rw [h5, i5]
  have hk : k = indexToBlockIndex m.config.treeHeight (fun i => k i * 2 ^ m.config.treeHeight) := by
    funext i
    simp only [indexToBlockIndex, divExp2Floor_eq]
    rw [Int.mul_ediv_cancel _ (Int.ne_of_gt (two_pow_pos' _))]
  have : k ∈ jobs ↔ k ∈ jobs' := by rw [hk, h4, i4]
  simp only [this]

/-- The representation stays consistent: after any history of operations and measurements, a node's value is the mean of its cells. -/
theorem C44_node_mean (m : HashedWaveletOctree) (hm : m.Mapped) (n : NdtreeIndex 3) (h0 : 0 ≤ n.height)
    (h1 : n.height ≤ m.config.treeHeight) :
    m.getNodeValue n = boxMean m.getCellValue n.height.toNat fun k => n.position k * 2 ^ n.height.toNat :=
  hm.sound.node_mean n h0 h1

/-- Every cell with a point within the maximum range of the sensor, in each coordinate, is in the part of the map that is searched. -/
theorem C44_search_covers_range (m : HashedWaveletOctree) (hm : m.Mapped) (scan : Scan) (j : Index 3) (p : Point 3)
    (hp : ∀ i, j i * m.config.minCellWidth ≤ p i ∧ p i ≤ (j i + 1) * m.config.minCellWidth) (hd : ∀ i, |p i - scan.origin i| ≤ scan.maxRange) (i : Fin 3) :
    (m.config.fovMinMax scan).2.1 i ≤ (indexAndHeightToNodeIndex j (m.config.fovMinMax scan).1).position i ∧
      (indexAndHeightToNodeIndex j (m.config.fovMinMax scan).1).position i ≤ (m.config.fovMinMax scan).2.2 i := by
  have hw := hm.sound.width
  have hpow : (0 : Int) ≤ (exp2 m.config.treeHeight : Nat) := Int.natCast_nonneg _
  obtain ⟨h1, h2⟩ := abs_le.1 (hd i)
  obtain ⟨h3, h4⟩ := hp i
  have hlo : (scan.origin i - scan.maxRange) * (1 / m.config.minCellWidth) ≤ j i + 1 := by
    rw [mul_one_div, div_le_iff₀ hw]; linarith
  have hhi : (j i : ℚ) ≤ (scan.origin i + scan.maxRange) * (1 / m.config.minCellWidth) := by
    rw [mul_one_div, le_div_iff₀ hw]; linarith
  have hfl := Int.floor_le ((scan.origin i - scan.maxRange) * (1 / m.config.minCellWidth) - 1 / 2)
  have hce := Int.le_ceil ((scan.origin i + scan.maxRange) * (1 / m.config.minCellWidth) - 1 / 2)
  have hone : (1 : Int) ≤ (exp2 m.config.treeHeight : Nat) := by
    rw [exp2_eq]; exact_mod_cast Nat.one_le_two_pow
  simp only [HashedWaveletOctreeConfig.fovMinMax, indexAndHeightToNodeIndex, divExp2Floor_eq, pointToFloorIndex, pointToCeilIndex, scaledPointToFloorIndex, scaledPointToCeilIndex]
  constructor
  · apply Int.ediv_le_ediv (two_pow_pos' _)
    have : ((⌊(scan.origin i - scan.maxRange) * (1 / m.config.minCellWidth) - 1 / 2⌋ : Int) : ℚ) < ((j i + 1 : Int) : ℚ) := by push_cast; linarith
    have : ⌊(scan.origin i - scan.maxRange) * (1 / m.config.minCellWidth) - 1 / 2⌋ < j i + 1 := by exact_mod_cast this
    omega
  · apply Int.ediv_le_ediv (two_pow_pos' _)
    have : ((j i : Int) : ℚ) < ((⌈(scan.origin i + scan.maxRange) * (1 / m.config.minCellWidth) - 1 / 2⌉ + 1 : Int) : ℚ) := by push_cast; linarith
    have : j i < ⌈(scan.origin i + scan.maxRange) * (1 / m.config.minCellWidth) - 1 / 2⌉ + 1 := by exact_mod_cast this
    omega

/-- The finest update resolution: the power of two that is nearest (in the logarithm) to the requested resolution over the cell width, at least 1. -/
theorem C44_termination_height (scan : Scan) (w : ℚ) (hw : 0 < w) :
    (scan.maxUpdateResolution ≤ w → scan.terminationHeight w = 0) ∧
    (w < scan.maxUpdateResolution → 0 ≤ scan.terminationHeight w ∧
      (2 : ℚ) ^ (2 * scan.terminationHeight w) ≤ 2 * (scan.maxUpdateResolution / w) ^ 2 ∧
      2 * (scan.maxUpdateResolution / w) ^ 2 < (2 : ℚ) ^ (2 * scan.terminationHeight w + 2)) := by
  unfold Scan.terminationHeight
  refine ⟨fun h => if_neg (not_lt.2 h), fun h => ?_⟩
  have h0 := scan.terminationHeight_nonneg w hw
  unfold Scan.terminationHeight at h0
  rw [if_pos h] at h0 ⊢
  have h1 : 1 < scan.maxUpdateResolution / w := (one_lt_div hw).2 h
  have h3 : 0 < 2 * (scan.maxUpdateResolution / w) ^ 2 := by positivity
  refine ⟨h0, ?_, ?_⟩
  · have := Int.zpow_log_le_self (b := 2) (by decide) h3
    refine le_trans (zpow_le_zpow_right₀ (by norm_num) ?_) (by exact_mod_cast this)
    omega
  · have := Int.lt_zpow_succ_log_self (b := 2) (by decide) (2 * (scan.maxUpdateResolution / w) ^ 2)
    refine lt_of_lt_of_le (by exact_mod_cast this) (zpow_le_zpow_right₀ (by norm_num) ?_)
    omega

/-- Cells that are updated individually end up within the bounds, up to the noise threshold. -/
theorem C44_single_cell_bounded (m : HashedWaveletOctree) (hm : m.Mapped) (scan : Scan) (hr : 0 ≤ scan.maxRange)
    (schedule : List (Index 3) → List (Index 3)) (hs : ∀ l, (schedule l).Perm l) (now : ℚ) (stamp : Index 3 → ℚ) :
    ∃ m', m.updateMap scan schedule now stamp = some m' ∧ ∀ j, m.Selected scan j → m.StopsAt scan j 0 →
      m.config.minLogOdds - noiseThreshold ≤ m'.getCellValue j ∧ m'.getCellValue j ≤ m.config.maxLogOdds + noiseThreshold := by
  obtain ⟨m', h1, h2⟩ := C44_hashed_cells m hm scan hr schedule hs now stamp
  refine ⟨m', h1, fun j hj h0 => ?_⟩
  obtain ⟨s, hs, hv⟩ := (h2 j).1 hj
  rw [C44_stop_unique m scan j s 0 hs h0] at hv
  have hT := scan.terminationHeight_nonneg _ hm.sound.width
  have hlt : ¬ (scan.terminationHeight m.config.minCellWidth < ((0 : Nat) : Int)) := by push_cast; omega
  have hcell : m.getCellValue j = m.getNodeValue (indexAndHeightToNodeIndex j 0) := by
    rw [HashedWaveletOctree.cell_value hm.sound.le hm.sound.heights,
      HashedWaveletOctree.node_value hm.sound.le hm.sound.heights j 0 (Nat.zero_le _), Nat.sub_zero, List.take_of_length_le (by rw [cellPath_length])]
  have hsk : ¬ m.Skipped scan j 0 := fun h => hlt h.1
  unfold HashedWaveletOctree.ScanChange at hv
  dsimp only at hv
  rw [if_neg hsk, if_neg (fun h => hlt h.1), hcell, add_sub_cancel] at hv
  rw [hv]
  refine clamp_mem ?_ _
  have := hm.sound.bounds
  have : (0 : ℚ) < noiseThreshold := by unfold noiseThreshold; norm_num
  linarith

/-! ## Findings -/

/-- A free-space measurement of the cells around index 0. -/
def freeScan : Scan where
  updateType n := if n.position 0 = 0 ∧ n.position 1 = 0 ∧ n.position 2 = 0 then .fullyFree else .fullyUnobserved
  sample _ := -3
  coarseEnough _ _ := true
  origin _ := 0
  maxRange := 1
  maxUpdateResolution := 1

/-- One occupied cell, then one measurement that sees its whole neighbourhood as free. -/
def freeOps : List MappingOp :=
  [.op (.write (.add (fun _ => 0) 4 0)), .op (.write .threshold), .integrate freeScan id 1 fun _ => 2]

theorem freeOps_valid : ∀ o ∈ freeOps, o.Valid := by
  intro o ho
  simp only [freeOps, List.mem_cons, List.not_mem_nil, or_false] at ho
  rcases ho with rfl | rfl | rfl
  · trivial
  · trivial
  · exact ⟨by decide +kernel, fun l => List.Perm.refl l⟩

/-- The map after `freeOps`. -/
theorem freeOps_map : ∃ m, freeOps.foldlM MappingOp.run (HashedWaveletOctree.create ⟨1, -2, 4, 2, 5⟩) = some m ∧ m.Mapped ∧
    m.config = ⟨1, -2, 4, 2, 5⟩ ∧ m.threshold.getCellValue (fun _ => 1) = -25001 / 10000 ∧ m.threshold.config = m.config ∧
    m.Allocated (fun _ => 1) ∧ m.getCellValue (fun _ => 0) = 14999 / 10000 ∧ m.getNodeValue ⟨1, fun _ => 0⟩ = -20001 / 10000 := by
  obtain ⟨m, h1, h2⟩ := C44_terminates ⟨1, -2, 4, 2, 5⟩ (by decide +kernel) (by decide) freeOps freeOps_valid
  have hb : ((freeOps.foldlM MappingOp.run (HashedWaveletOctree.create ⟨1, -2, 4, 2, 5⟩)).any fun m =>
      decide (m.threshold.getCellValue (fun _ => 1) = -25001 / 10000) && decide (m.Allocated fun _ => 1) &&
        decide (m.getCellValue (fun _ => 0) = 14999 / 10000) && decide (m.getNodeValue ⟨1, fun _ => 0⟩ = -20001 / 10000)) = true := by
    decide +kernel
  rw [h1] at hb
  simp only [Option.any_some, Bool.and_eq_true, decide_eq_true_eq] at hb
  exact ⟨m, h1, ⟨_, by decide +kernel, by decide, freeOps, freeOps_valid, h1⟩, h2, hb.1.1.1, rfl, hb.1.1.2, hb.1.2, hb.2⟩

/-- Finding: after a measurement, thresholding does not bring all cells within the bounds. The new mean of a node is clamped, and the
block is not marked for thresholding; the node's cells can be anywhere around the mean. -/
theorem C44_threshold_bounds_fails : ∃ m j, HashedWaveletOctree.Mapped m ∧ m.Allocated j ∧
    m.threshold.getCellValue j < m.config.minLogOdds - 1 / 4 := by
  obtain ⟨m, _, h1, h2, h3, _, h4, _⟩ := freeOps_map
  refine ⟨m, _, h1, h4, ?_⟩
  rw [h3, h2]
  norm_num

theorem HashedWaveletOctree.Mapped.step {m m' : HashedWaveletOctree} (h : m.Mapped) {o : MappingOp} (ho : o.Valid) (hr : o.run m = some m') : m'.Mapped := by
  obtain ⟨config, hc, hH, ops, hv, hm⟩ := h
  refine ⟨config, hc, hH, ops ++ [o], ?_, ?_⟩
  · intro x hx
    rw [List.mem_append, List.mem_singleton] at hx
    rcases hx with hx | rfl
    · exact hv x hx
    · exact ho
  · rw [List.foldlM_append, hm]
    simp [hr]

/-- Finding: an occupied cell can remain occupied whatever number of measurements see it as free: its node's mean is at the lower
bound, so updates for free space are skipped. -/
theorem C44_free_updates_reach_cells_fails : ∃ m j, HashedWaveletOctree.Mapped m ∧ 1 < m.getCellValue j ∧
    ∀ scans : List Scan, (∀ s ∈ scans, 0 ≤ s.maxRange ∧ s.maxUpdateResolution ≤ m.config.minCellWidth ∧ ∀ n, s.updateType n ≠ .possiblyOccupied) →
      ∀ m', (scans.map fun s => MappingOp.integrate s id 0 fun _ => 0).foldlM MappingOp.run m = some m' → m'.getCellValue j = m.getCellValue j := by
  obtain ⟨m, _, h1, h2, _, _, _, h3, h4⟩ := freeOps_map
  refine ⟨m, fun _ => 0, h1, by rw [h3]; norm_num, ?_⟩
  -- the cells of the node and its mean do not change
  have key : ∀ scans : List Scan,
      (∀ s ∈ scans, 0 ≤ s.maxRange ∧ s.maxUpdateResolution ≤ m.config.minCellWidth ∧ ∀ n, s.updateType n ≠ .possiblyOccupied) →
      ∀ m₁ : HashedWaveletOctree, m₁.Mapped → m₁.config = m.config →
      (∀ j, InBox 1 (fun _ => 0) j → m₁.getCellValue j = m.getCellValue j) →
      ∀ m', (scans.map fun s => MappingOp.integrate s id 0 fun _ => 0).foldlM MappingOp.run m₁ = some m' →
        ∀ j, InBox 1 (fun _ => 0) j → m'.getCellValue j = m.getCellValue j := by
    intro scans
    induction scans with
    | nil =>
      intro _ m₁ _ _ hc m' he
      cases he
      exact hc
    | cons scan scans ih =>
      intro hv m₁ hm hcfg hc m' he
      obtain ⟨hr, hres, htype⟩ := hv scan (List.mem_cons_self ..)
      have hval : (MappingOp.integrate scan id 0 fun _ => 0).Valid := ⟨hr, fun l => List.Perm.refl l⟩
      obtain ⟨m₂, e2, hcells⟩ := C44_hashed_cells m₁ hm scan hr id (fun l => List.Perm.refl l) 0 fun _ => 0
      obtain ⟨m₃, e3, hcfg2, _⟩ := C44_hashed_blocks m₁ hm scan hr id (fun l => List.Perm.refl l) 0 fun _ => 0
      rw [e2] at e3
      injection e3 with e3
      subst e3
      rw [List.map_cons, List.foldlM_cons] at he
      have hrun : MappingOp.run m₁ (.integrate scan id 0 fun _ => 0) = some m₂ := e2
      rw [hrun] at he
      refine ih (fun s hs => hv s (List.mem_cons_of_mem _ hs)) m₂ (hm.step hval hrun) (hcfg2.trans hcfg) ?_ m' he
      -- one measurement
      have hmean : m₁.getNodeValue ⟨1, fun _ => 0⟩ = -20001 / 10000 := by
        rw [← h4, C44_node_mean m₁ hm _ (by decide) (by rw [hcfg, h2]; decide), C44_node_mean m h1 _ (by decide) (by rw [h2]; decide)]
        apply boxMean_congr
        intro j hj
        apply hc
        simpa using hj
      intro j hj
      rw [← hc j hj]
      by_cases hsel : m₁.Selected scan j
      · obtain ⟨s, hst, hv⟩ := (hcells j).1 hsel
        have hanc : indexAndHeightToNodeIndex j 1 = ⟨1, fun _ => 0⟩ := by
          unfold indexAndHeightToNodeIndex
          congr 1
          funext k
          have := hj k
          rw [divExp2Floor_eq]
          simp only [pow_one] at this ⊢
          omega
        have hT : scan.terminationHeight m₁.config.minCellWidth = 0 := (C44_termination_height scan _ hm.sound.width).1 (by rw [hcfg]; exact hres)
        have hH : m₁.config.treeHeight = 2 := by rw [hcfg, h2]
        have hno : m₁.getNodeValue ⟨1, fun _ => 0⟩ < m₁.config.minLogOdds + noiseThreshold / 10 := by
          rw [hmean, hcfg, h2]; norm_num [noiseThreshold]
        have hs1 : s = 1 := by
          have hlt := hst.1
          rw [hH] at hlt
          by_contra hne
          have := hst.2.1 1 (by omega) (by rw [hH]; decide)
          unfold HashedWaveletOctree.Refines at this
          dsimp only at this
          rw [hanc] at this
          rcases this.2.2.1 with hc | hc
          · exact htype _ hc
          · linarith
        subst hs1
        have hskip : m₁.Skipped scan j 1 := by
          unfold HashedWaveletOctree.Skipped
          dsimp only
          rw [hanc, hT]
          exact ⟨by decide, Or.inr ⟨htype _, hno⟩⟩
        rw [hv]
        unfold HashedWaveletOctree.ScanChange
        dsimp only
        rw [if_pos hskip, add_zero]
      · exact (hcells j).2 hsel
  intro scans hv m' he
  exact key scans hv m h1 rfl (fun _ _ => rfl) m' he _ (fun k => by dsimp only; omega)

/-! ## Non-vacuity -/

/-- A measurement that also sees occupied space and is refined down to single cells. -/
def surfaceScan : Scan where
  updateType n := if n.position 0 = 0 ∧ n.position 1 = 0 ∧ n.position 2 = 0 then .possiblyOccupied else .freeOrUnobserved
  sample n := if n.position 0 = 0 then 3 / 4 else -1 / 4
  coarseEnough t _ := t = .freeOrUnobserved
  origin _ := 0
  maxRange := 1
  maxUpdateResolution := 1

/-- Non-vacuity of `C44_hashed_cells`, `C44_hashed_blocks` and the others: a mapped state, and a measurement that selects a
block, refines a node and skips, clamps and adds elsewhere. -/
example : ∃ m, HashedWaveletOctree.Mapped m ∧ 0 ≤ surfaceScan.maxRange ∧ m.Selected surfaceScan (fun _ => 0) ∧
    m.StopsAt surfaceScan (fun _ => 0) 0 ∧ m.ScanChange surfaceScan (fun _ => 0) 0 ≠ 0 ∧ ¬ m.Selected surfaceScan (fun _ => 100) := by
  obtain ⟨m, h0, h1, h2, _, _, _, h3, h4⟩ := freeOps_map
  have hb : ((freeOps.foldlM MappingOp.run (HashedWaveletOctree.create ⟨1, -2, 4, 2, 5⟩)).any fun m =>
      (m.blocksToUpdate surfaceScan == some [fun _ => 0]) && decide (m.ScanChange surfaceScan (fun _ => 0) 0 = 3 / 4)) = true := by
    decide +kernel
  rw [h0] at hb
  simp only [Option.any_some, Bool.and_eq_true, decide_eq_true_eq, beq_iff_eq] at hb
  obtain ⟨jobs, hj, _, hmem⟩ := h1.sound.blocksToUpdate (scan := surfaceScan) (by decide +kernel)
  rw [hb.1] at hj
  injection hj with hj
  subst hj
  have hT : surfaceScan.terminationHeight m.config.minCellWidth = 0 :=
    (C44_termination_height surfaceScan _ h1.sound.width).1 (by rw [h2]; decide +kernel)
  refine ⟨m, h1, by decide +kernel, (hmem _).1 ?_, ⟨h1.sound.pos, ?_, ?_⟩, ?_, fun h => ?_⟩
  · rw [h2]; decide +kernel
  · intro k h5 h6
    rw [h2] at h6
    obtain rfl : k = 1 := by simp only at h6; omega
    have hanc : indexAndHeightToNodeIndex (fun _ : Fin 3 => (0 : Int)) 1 = ⟨1, fun _ => 0⟩ := by
      unfold indexAndHeightToNodeIndex; congr 1
    unfold HashedWaveletOctree.Refines
    dsimp only
    rw [hT, hanc]
    exact ⟨by decide, by decide, Or.inl (by decide), by decide⟩
  · unfold HashedWaveletOctree.Refines
    rw [hT]
    exact fun h => absurd h.1 (by decide)
  · rw [hb.2]; norm_num
  · have := (hmem _).2 h
    rw [h2] at this
    revert this
    decide +kernel

end Wavemap
