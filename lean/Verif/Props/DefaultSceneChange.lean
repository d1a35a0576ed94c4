import Verif.Props.ChunkedIntegrator
/-!
# C81 for the default map and integrator

The hashed chunked wavelet octree and its coarse-to-fine integrator.
-/
namespace Wavemap

/-! ## Specification -/

/-- The map `m'` is what the scans, one after the other, make of `m`, if it is thresholded at any times in between. -/
inductive Rescanned : HashedChunkedWaveletOctree → List Scan → HashedChunkedWaveletOctree → Prop
  | nil {m} : Rescanned m [] m
  | scan {m m1 m2 s ss} (schedule : List (Index 3) → List (Index 3)) (now : ℚ) (stamp : Index 3 → ℚ) : (∀ l, (schedule l).Perm l) →
      m.updateMap s schedule now stamp = some m1 → Rescanned m1 ss m2 → Rescanned m (s :: ss) m2
  | threshold {m m1 m2 ss} : m.threshold = some m1 → Rescanned m1 ss m2 → Rescanned m ss m2

/-- The cell is within the maximum range of the sensor, no node around it is unobserved, and measurements are integrated down to single cells. -/
structure InSight (w : ℚ) (j : Index 3) (s : Scan) : Prop where
  point : ∃ p : Point 3, ∀ i, (j i * w ≤ p i ∧ p i ≤ (j i + 1) * w) ∧ |p i - s.origin i| ≤ s.maxRange
  observed : ∀ h : Nat, s.updateType (indexAndHeightToNodeIndex j h) ≠ .fullyUnobserved
  fine : s.maxUpdateResolution ≤ w

/-- The scan sees free space at the cell: at the centre of each node around it, the update is at most `-δ`. -/
structure SeesFree (w δ : ℚ) (H : Nat) (j : Index 3) (s : Scan) : Prop extends InSight w j s where
  free : ∀ h, h < H → s.sample (indexAndHeightToNodeIndex j h) ≤ -δ

/-- The scan sees a surface at the cell: at the centre of each node around it, the update is at least `δ`, and all of these nodes may be occupied. -/
structure SeesOccupied (w δ : ℚ) (H : Nat) (j : Index 3) (s : Scan) : Prop extends InSight w j s where
  occupied : ∀ h, h < H → δ ≤ s.sample (indexAndHeightToNodeIndex j h)
  possible : ∀ h : Nat, s.updateType (indexAndHeightToNodeIndex j h) = .possiblyOccupied

/-- A node around the cell, or its block, counts as entirely free: the mean of its cells is within the noise threshold of the lower bound. -/
def SaturatedFree (m : HashedChunkedWaveletOctree) (j : Index 3) : Prop :=
  ∃ h : Nat, h ≤ m.config.treeHeight ∧ m.getNodeValue (indexAndHeightToNodeIndex j h) < m.config.minLogOdds + 1 / 1000

/-! ## Steps -/

namespace HashedChunkedWaveletOctree
variable {m m' : HashedChunkedWaveletOctree}

theorem Mapped.append (hm : m.Mapped) (o : MappingOp) (ho : o.Valid) (h : o.runChunked m = some m') : m'.Mapped := by
  obtain ⟨config, hc, hH, ops, hops, hr⟩ := hm
  refine ⟨config, hc, hH, ops ++ [o], ?_, ?_⟩
  · intro o' ho'
    rw [List.mem_append, List.mem_singleton] at ho'
    rcases ho' with h | rfl
    · exact hops _ h
    · exact ho
  · rw [List.foldlM_append, hr]
    exact (by rw [List.foldlM_cons, h]; rfl : [o].foldlM MappingOp.runChunked m = some m')

theorem Mapped.update (hm : m.Mapped) {scan : Scan} (hr : 0 ≤ scan.maxRange) {schedule : List (Index 3) → List (Index 3)} (hs : ∀ l, (schedule l).Perm l) {now : ℚ}
    {stamp : Index 3 → ℚ} (h : m.updateMap scan schedule now stamp = some m') : m'.Mapped :=
  hm.append (.integrate scan schedule now stamp) ⟨hr, hs⟩ h

theorem Mapped.threshold_step (hm : m.Mapped) (h : m.threshold = some m') (j : Index 3) :
    m'.Mapped ∧ m'.config = m.config ∧ (m.Allocated j → m'.Allocated j) ∧
      (m'.getCellValue j = m.getCellValue j ∨ m'.getCellValue j = clamp m.config.minLogOdds m.config.maxLogOdds (m.getCellValue j)) := by
  refine ⟨hm.append (.op (.write .threshold)) trivial h, ?_⟩
  obtain ⟨p, hrel, hp, hH⟩ := hm.shadow
  obtain ⟨c', e1, e2⟩ := hrel.step hp.shaped (.write .threshold)
  have : m' = c' := by
    have e1' : m.threshold = some c' := e1
    rw [h] at e1'; exact Option.some.inj e1'
  subst this
  have hcfg := HashedWaveletOctree.run_config p (.write .threshold)
  have hconf : m'.config = m.config := by rw [e2.config, hcfg, hrel.config]
  have hs : HashedWaveletOctree.Sound (HashedWaveletOp.run p (.write .threshold)) := hp.run _
  have hb : (HashedWaveletOp.run p (.write .threshold)).blocks.getBlock (indexToBlockIndex p.config.treeHeight j) =
      (p.blocks.getBlock (indexToBlockIndex p.config.treeHeight j)).map fun b => b.threshold :=
    SpatialHash.getBlock_mapBlocks p.blocks _ fun _ b => b.threshold
  refine ⟨hconf, fun ha => ?_, ?_⟩
  · rw [allocated_iff] at ha ⊢
    rw [hconf]
    rw [hrel.config] at ha ⊢
    rcases blocks_get hrel.blocks (indexToBlockIndex p.config.treeHeight j) with ⟨h1, -⟩ | ⟨x, b, -, h2, -⟩
    · rw [h1] at ha; cases ha
    · rw [h2] at hb
      rcases blocks_get e2.blocks (indexToBlockIndex p.config.treeHeight j) with ⟨-, h4⟩ | ⟨x', b', h3, -, -⟩
      · rw [hb] at h4; cases h4
      · rw [h3]; rfl
  · rw [e2.get, hrel.get, hrel.config, HashedWaveletOctree.cell_value hs.le hs.heights, hcfg, hb, HashedWaveletOctree.cell_value hp.le hp.heights]
    cases e : p.blocks.getBlock (indexToBlockIndex p.config.treeHeight j) with
    | none => exact Or.inl rfl
    | some b =>
      have hf := hp.fits _ _ e
      simp only [Option.map_some]
      unfold WaveletBlock.threshold
      split
      · right
        dsimp only
        rw [hf.minOk, hf.maxOk]
        exact WTree.recThreshold_getValue _ _ _ _ _ (hf.depth.descend _ (cellPath_length _ _))
      · exact Or.inl rfl

theorem Mapped.search (hm : m.Mapped) {scan : Scan} {j : Index 3} (h : InSight m.config.minCellWidth j scan) (i : Fin 3) :
    (m.config.fovMinMax scan).2.1 i ≤ (indexAndHeightToNodeIndex j (m.config.fovMinMax scan).1).position i ∧
      (indexAndHeightToNodeIndex j (m.config.fovMinMax scan).1).position i ≤ (m.config.fovMinMax scan).2.2 i := by
  obtain ⟨p, hrel, hp, -⟩ := hm.shadow
  obtain ⟨x, hx⟩ := h.point
  obtain ⟨config, hc, hH, ops, hops, hr⟩ := hm
  have hcfg : m.config = config := by
    obtain ⟨c', m1, h1, h2, _, h4⟩ := Rel.mapping_steps ops hops (.create config) (.create config) ⟨rfl, .nil⟩ (create_sound hc) hH
    rw [hr] at h1
    obtain rfl := Option.some.inj h1
    rw [h2.config, h4]; rfl
  have hc' := hc
  simp only [HashedWaveletOctreeConfig.isValidChunked, Bool.and_eq_true, decide_eq_true_eq] at hc'
  have hmapped : (HashedWaveletOctree.create config).Mapped :=
    ⟨config, hc'.1, by have := hc'.2; unfold maxSupportedTreeHeight at this; omega, [], by simp, rfl⟩
  rw [hcfg] at hx ⊢
  exact C44_search_covers_range (HashedWaveletOctree.create config) hmapped scan j x (fun i => (hx i).1) (fun i => (hx i).2) i

end HashedChunkedWaveletOctree

theorem InSight.range {w : ℚ} {j : Index 3} {s : Scan} (h : InSight w j s) : 0 ≤ s.maxRange := by
  obtain ⟨p, hp⟩ := h.point
  exact (abs_nonneg _).trans (hp 0).2

theorem clamp_le_max {lo hi v a : ℚ} (hl : lo ≤ hi) (h : v ≤ max a lo) : clamp lo hi v ≤ max a lo := by
  unfold clamp
  split
  · exact le_max_right _ _
  · split
    · next h1 => exact h1.le.trans h
    · exact h

theorem min_le_clamp {lo hi v a : ℚ} (hl : lo ≤ hi) (h : min a hi ≤ v) : min a hi ≤ clamp lo hi v := by
  unfold clamp
  split
  · next h1 => exact h.trans h1.le
  · split
    · exact min_le_right _ _
    · exact h

/-- Where the search stops, if no node around the cell is saturated: not a skipped node; a node updated in a batch is a single cell. -/
theorem stop_change {m : HashedChunkedWaveletOctree} (hm : m.Mapped) {scan : Scan} {j : Index 3} {s : Nat} (hi : InSight m.config.minCellWidth j scan)
    (hns : ¬ m.Skipped scan j s) :
    m.ScanChange scan j s = scan.sample (indexAndHeightToNodeIndex j s) ∨
      (s = 0 ∧ m.ScanChange scan j s = clamp (m.config.minLogOdds - 1 / 1000) (m.config.maxLogOdds + 1 / 1000) (scan.sample (indexAndHeightToNodeIndex j 0) + m.getCellValue j) -
        m.getCellValue j) := by
  unfold HashedChunkedWaveletOctree.ScanChange
  dsimp only
  rw [if_neg hns]
  split
  · next hb =>
    right
    obtain ⟨p, hrel, hp, hH⟩ := hm.shadow
    have hw : 0 < m.config.minCellWidth := by rw [hrel.config]; exact hp.width
    have h0 : s = 0 := by
      have h1 := hb.1
      rw [(C44_termination_height scan _ hw).1 hi.fine] at h1
      omega
    subst h0
    refine ⟨rfl, ?_⟩
    have hnode : m.getNodeValue (indexAndHeightToNodeIndex j 0) = m.getCellValue j := by
      have := C44_chunked_node_mean m hm (indexAndHeightToNodeIndex j 0) (by simp [indexAndHeightToNodeIndex]) (by simp [indexAndHeightToNodeIndex])
      rw [this]
      simp [indexAndHeightToNodeIndex, boxMean, divExp2Floor_eq]
    rw [hnode]
  · exact Or.inl rfl

/-! ## Theorems -/

/-- **C81** For the default map: if a cell that was occupied is seen as free space in each of `n` scans, its value has dropped by at least `n δ`, or to the lower
bound; unless at some time a node around it counted as entirely free. -/
theorem C81_default_clears (m m' : HashedChunkedWaveletOctree) (hm : m.Mapped) (scans : List Scan) (δ : ℚ) (hδ : 0 ≤ δ) (j : Index 3) (hj : 0 < m.getCellValue j)
    (hsee : ∀ s ∈ scans, SeesFree m.config.minCellWidth δ m.config.treeHeight j s) (h : Rescanned m scans m') :
    m'.getCellValue j ≤ max (m.getCellValue j - δ * scans.length) m.config.minLogOdds ∨
      ∃ m1 s1 s2, scans = s1 ++ s2 ∧ Rescanned m s1 m1 ∧ Rescanned m1 s2 m' ∧ SaturatedFree m1 j := by
  have ha : m.Allocated j := by
    obtain ⟨p, hrel, hp, -⟩ := hm.shadow
    rw [HashedChunkedWaveletOctree.allocated_iff, hrel.config]
    rw [hrel.get, HashedWaveletOctree.cell_value hp.le hp.heights] at hj
    rcases HashedChunkedWaveletOctree.blocks_get hrel.blocks (indexToBlockIndex p.config.treeHeight j) with ⟨-, h2⟩ | ⟨x, b, h1, -, -⟩
    · rw [h2] at hj; exact absurd hj (lt_irrefl _)
    · rw [h1]; rfl
  clear hj
  suffices ∀ a : ℚ, m.getCellValue j ≤ max a m.config.minLogOdds → m'.getCellValue j ≤ max (a - δ * scans.length) m.config.minLogOdds ∨
      ∃ m1 s1 s2, scans = s1 ++ s2 ∧ Rescanned m s1 m1 ∧ Rescanned m1 s2 m' ∧ SaturatedFree m1 j from this _ (le_max_left _ _)
  induction h with
  | nil => intro a hv; left; simpa using hv
  | @threshold m m1 m2 ss ht hrest ih =>
    intro a hv
    obtain ⟨p, hrel, hp, -⟩ := hm.shadow
    have hlo : m.config.minLogOdds ≤ m.config.maxLogOdds := by rw [hrel.config]; exact hp.bounds.le
    obtain ⟨h1, h2, h3, h4⟩ := hm.threshold_step ht j
    have := ih h1 (by rw [h2]; exact hsee) (h3 ha) a (by
      rw [h2]
      rcases h4 with h4 | h4
      · rw [h4]; exact hv
      · rw [h4]; exact clamp_le_max hlo hv)
    rw [h2] at this
    rcases this with h5 | ⟨x, s1, s2, e, r1, r2, hsat⟩
    · exact Or.inl h5
    · exact Or.inr ⟨x, s1, s2, e, .threshold ht r1, r2, hsat⟩
  | @scan m m1 m2 s ss schedule now stamp hs hu hrest ih =>
    intro a hv
    have hsee0 := hsee s (List.mem_cons_self ..)
    by_cases hsat : SaturatedFree m j
    · exact Or.inr ⟨m, [], s :: ss, rfl, .nil, .scan schedule now stamp hs hu hrest, hsat⟩
    have hm1 := hm.update hsee0.range hs hu
    have hns : ∀ h : Nat, h ≤ m.config.treeHeight → m.config.minLogOdds + 1 / 1000 ≤ m.getNodeValue (indexAndHeightToNodeIndex j h) := by
      intro h hh
      by_contra hc
      exact hsat ⟨h, hh, not_le.1 hc⟩
    have hsel : m.Selected s j := ⟨hm.search hsee0.toInSight, fun h _ _ => hsee0.observed h, Or.inr ⟨ha, hns _ (le_refl _)⟩⟩
    obtain ⟨m1', e1, e2⟩ := C44_chunked_cells m hm s hsee0.range schedule hs now stamp
    obtain ⟨m1'', f1, f2, f3⟩ := C44_chunked_blocks m hm s hsee0.range schedule hs now stamp
    rw [hu] at e1 f1
    obtain rfl := Option.some.inj e1
    obtain rfl := Option.some.inj f1
    obtain ⟨t, ht, hval⟩ := (e2 j).1 hsel
    have ha1 : m1.Allocated j := by
      obtain ⟨k, hk, -⟩ := ha
      obtain ⟨b, hb, -⟩ := (f3 j k hk).2 hsel
      exact ⟨k, by rw [f2]; exact hk, by rw [hb]; rfl⟩
    have hnsk : ¬ m.Skipped s j t := by
      rintro ⟨-, h | h⟩
      · exact hsee0.observed t h
      · exact absurd h.2 (not_lt.2 (hns t ht.1.le))
    have hnew : m1.getCellValue j ≤ max (a - δ) m.config.minLogOdds := by
      have hd := hsee0.free t ht.1
      rcases stop_change hm hsee0.toInSight hnsk with hc | ⟨rfl, hc⟩
      · rw [hval, hc]
        rcases le_max_iff.1 hv with h | h
        · exact le_max_of_le_left (by linarith)
        · exact le_max_of_le_right (by linarith)
      · rw [hval, hc, add_sub_cancel]
        unfold clamp
        have hx : s.sample (indexAndHeightToNodeIndex j 0) + m.getCellValue j ≤ max (a - δ) m.config.minLogOdds := by
          rcases le_max_iff.1 hv with h | h
          · exact le_max_of_le_left (by linarith)
          · exact le_max_of_le_right (by linarith)
        split
        · exact le_max_of_le_right (by linarith)
        · split
          · next h1 => exact h1.le.trans hx
          · exact hx
    have := ih hm1 (by rw [f2]; exact fun s' hs' => hsee s' (List.mem_cons_of_mem _ hs')) ha1 (a - δ) (by rw [f2]; exact hnew)
    rw [f2] at this
    rcases this with h5 | ⟨x, s1, s2, e, r1, r2, hsat'⟩
    · left
      rw [List.length_cons]
      push_cast
      rwa [show a - δ * ((ss.length : ℚ) + 1) = a - δ - δ * ss.length by ring]
    · exact Or.inr ⟨x, s :: s1, s2, by rw [e]; rfl, .scan schedule now stamp hs hu r1, r2, hsat'⟩

/-- **C81** For the default map: if a surface is seen in a cell in each of `n` scans, its value has risen by at least `n δ`, or to the upper bound. -/
theorem C81_default_appears (m m' : HashedChunkedWaveletOctree) (hm : m.Mapped) (scans : List Scan) (δ : ℚ) (hδ : 0 ≤ δ) (j : Index 3)
    (hsee : ∀ s ∈ scans, SeesOccupied m.config.minCellWidth δ m.config.treeHeight j s) (h : Rescanned m scans m') :
    min (m.getCellValue j + δ * scans.length) m.config.maxLogOdds ≤ m'.getCellValue j := by
  suffices ∀ a : ℚ, min a m.config.maxLogOdds ≤ m.getCellValue j → min (a + δ * scans.length) m.config.maxLogOdds ≤ m'.getCellValue j from this _ (min_le_left _ _)
  induction h with
  | nil => intro a hv; simpa using hv
  | @threshold m m1 m2 ss ht hrest ih =>
    intro a hv
    obtain ⟨p, hrel, hp, -⟩ := hm.shadow
    have hlo : m.config.minLogOdds ≤ m.config.maxLogOdds := by rw [hrel.config]; exact hp.bounds.le
    obtain ⟨h1, h2, -, h4⟩ := hm.threshold_step ht j
    have := ih h1 (by rw [h2]; exact hsee) a (by
      rw [h2]
      rcases h4 with h4 | h4
      · rw [h4]; exact hv
      · rw [h4]; exact min_le_clamp hlo hv)
    rwa [h2] at this
  | @scan m m1 m2 s ss schedule now stamp hs hu hrest ih =>
    intro a hv
    have hsee0 := hsee s (List.mem_cons_self ..)
    have hm1 := hm.update hsee0.range hs hu
    have hsel : m.Selected s j := ⟨hm.search hsee0.toInSight, fun h _ _ => hsee0.observed h, Or.inl (hsee0.possible _)⟩
    obtain ⟨m1', e1, e2⟩ := C44_chunked_cells m hm s hsee0.range schedule hs now stamp
    obtain ⟨m1'', f1, f2, -⟩ := C44_chunked_blocks m hm s hsee0.range schedule hs now stamp
    rw [hu] at e1 f1
    obtain rfl := Option.some.inj e1
    obtain rfl := Option.some.inj f1
    obtain ⟨t, ht, hval⟩ := (e2 j).1 hsel
    have hnsk : ¬ m.Skipped s j t := by
      rintro ⟨-, h | h⟩
      · exact hsee0.observed t h
      · exact h.1 (hsee0.possible t)
    have hnew : min (a + δ) m.config.maxLogOdds ≤ m1.getCellValue j := by
      have hd := hsee0.occupied t ht.1
      rcases stop_change hm hsee0.toInSight hnsk with hc | ⟨rfl, hc⟩
      · rw [hval, hc]
        rcases min_le_iff.1 hv with h | h
        · exact min_le_of_left_le (by linarith)
        · exact min_le_of_right_le (by linarith)
      · rw [hval, hc, add_sub_cancel]
        have hx : min (a + δ) m.config.maxLogOdds ≤ s.sample (indexAndHeightToNodeIndex j 0) + m.getCellValue j := by
          rcases min_le_iff.1 hv with h | h
          · exact min_le_of_left_le (by linarith)
          · exact min_le_of_right_le (by linarith)
        unfold clamp
        split
        · next h1 => exact hx.trans h1.le
        · split
          · exact min_le_of_right_le (by linarith)
          · exact hx
    have := ih hm1 (by rw [f2]; exact fun s' hs' => hsee s' (List.mem_cons_of_mem _ hs')) (a + δ) (by rw [f2]; exact hnew)
    rw [f2] at this
    rw [List.length_cons]
    push_cast
    rwa [show a + δ * ((ss.length : ℚ) + 1) = a + δ + δ * ss.length by ring]

/-! ## Findings -/

/-- A scan that sees the cells from 0 to 15 in each coordinate as free, with the update `-2/5`; larger nodes are updated as a whole if `coarse`. -/
def clearScan (coarse : Bool) : Scan where
  updateType n := if ∀ i, n.position i / 2 ^ (4 - n.height.toNat) = 0 then .fullyFree else .fullyUnobserved
  sample _ := -2 / 5
  coarseEnough _ _ := coarse
  origin _ := 0
  maxRange := 1
  maxUpdateResolution := 1

theorem clearScan_sees (coarse : Bool) (H : Nat) : SeesFree 1 (2 / 5) H (fun _ => 0) (clearScan coarse) where
  point := ⟨fun _ => 0, fun _ => ⟨⟨by simp, by simp⟩, by simp [clearScan]⟩⟩
  observed := fun _ => by simp [clearScan, indexAndHeightToNodeIndex, divExp2Floor_eq]
  fine := le_refl _
  free := fun _ _ => by simp [clearScan]; norm_num

theorem HashedChunkedWaveletOctree.threshold_getBlock {m m' : HashedChunkedWaveletOctree} (h : m.threshold = some m') {k : Index 3} {b : ChunkedWaveletBlock}
    (hb : m.blocks.getBlock k = some b) (hf : b.needsThresholding = false) : m'.blocks.getBlock k = some b := by
  unfold HashedChunkedWaveletOctree.threshold HashedChunkedWaveletOctree.mapBlocksM at h
  obtain ⟨l, hl, rfl⟩ := Option.map_eq_some_iff.1 h
  dsimp only
  clear h
  generalize m.blocks = bs at hb hl
  induction bs generalizing l with
  | nil => cases hb
  | cons e bs ih =>
    rw [List.mapM_cons] at hl
    obtain ⟨x, hx, hl⟩ := Option.bind_eq_some_iff.1 hl
    obtain ⟨y, hy, hl⟩ := Option.bind_eq_some_iff.1 hl
    obtain rfl := Option.some.inj hl
    obtain ⟨b', hb', rfl⟩ := Option.map_eq_some_iff.1 hx
    have hcons : ∀ (x : Index 3 × ChunkedWaveletBlock) (l : List (Index 3 × ChunkedWaveletBlock)),
        SpatialHash.getBlock (x :: l) k = if x.1 = k then some x.2 else SpatialHash.getBlock l k := fun x l => rfl
    rw [hcons] at hb ⊢
    dsimp only
    by_cases he : e.1 = k
    · rw [if_pos he] at hb ⊢
      obtain rfl := Option.some.inj hb
      dsimp only at hb'
      unfold ChunkedWaveletBlock.threshold at hb'
      rw [if_neg (by simp [hf])] at hb'
      rw [hb']
    · rw [if_neg he] at hb ⊢
      exact ih y hb hy

/-- If the mean of a block counts as free, no scan changes its cells, unless it may see a surface in the block: cells that are occupied stay so. -/
theorem C81_default_stuck (m m' : HashedChunkedWaveletOctree) (hm : m.Mapped) (scans : List Scan) (j k : Index 3) (hk : InBlock m.config.treeHeight k j)
    (b : ChunkedWaveletBlock) (hb : m.blocks.getBlock k = some b) (hf : b.needsThresholding = false)
    (hsat : m.getNodeValue (indexAndHeightToNodeIndex j m.config.treeHeight) < m.config.minLogOdds + 1 / 1000)
    (hsee : ∀ s ∈ scans, 0 ≤ s.maxRange ∧ s.updateType (indexAndHeightToNodeIndex j m.config.treeHeight) ≠ .possiblyOccupied)
    (h : Rescanned m scans m') : m'.getCellValue j = m.getCellValue j := by
  have hkj := (inBlock_iff _ _).1 hk
  have same : ∀ m1 : HashedChunkedWaveletOctree, m1.config = m.config → m1.blocks.getBlock k = m.blocks.getBlock k → m1.getCellValue j = m.getCellValue j ∧
      m1.getNodeValue (indexAndHeightToNodeIndex j m.config.treeHeight) = m.getNodeValue (indexAndHeightToNodeIndex j m.config.treeHeight) := by
    intro m1 hc hbk
    rw [← hkj] at hbk
    constructor
    · unfold HashedChunkedWaveletOctree.getCellValue HashedChunkedWaveletOctree.nodeToCellIndex
      rw [hc, hbk]
    · have hn : m.nodeToBlockIndex (indexAndHeightToNodeIndex j m.config.treeHeight) = indexToBlockIndex m.config.treeHeight j := by
        funext i
        simp only [HashedChunkedWaveletOctree.nodeToBlockIndex, indexToBlockIndex, nodeIndexToMinCornerIndex, indexAndHeightToNodeIndex, divExp2Floor_eq, Int.toNat_natCast,
          multExp2_eq]
        exact Int.mul_ediv_cancel _ (Int.ne_of_gt (two_pow_pos' _))
      have hn1 : m1.nodeToBlockIndex (indexAndHeightToNodeIndex j m.config.treeHeight) = indexToBlockIndex m.config.treeHeight j := by
        rw [← hn]; unfold HashedChunkedWaveletOctree.nodeToBlockIndex; rw [hc]
      unfold HashedChunkedWaveletOctree.getNodeValue HashedChunkedWaveletOctree.nodeToCellIndex
      rw [hn1, hn, hc, hbk]
  suffices ∀ m1 : HashedChunkedWaveletOctree, m1.Mapped → m1.config = m.config → m1.blocks.getBlock k = some b → Rescanned m1 scans m' →
      m'.config = m.config ∧ m'.blocks.getBlock k = some b from
    let r := this m hm rfl hb h
    (same m' r.1 (by rw [r.2, hb])).1
  clear h
  intro m1 hm1 hc1 hb1 h
  induction h with
  | nil => exact ⟨hc1, hb1⟩
  | threshold ht _ ih =>
    obtain ⟨h1, h2, -⟩ := hm1.threshold_step ht j
    exact ih hsee h1 (by rw [h2, hc1]) (HashedChunkedWaveletOctree.threshold_getBlock ht hb1 hf)
  | @scan m1 m2 m3 s ss schedule now stamp hs hu _ ih =>
    obtain ⟨hr, hn⟩ := hsee s (List.mem_cons_self ..)
    obtain ⟨m2', f1, f2, f3⟩ := C44_chunked_blocks m1 hm1 s hr schedule hs now stamp
    rw [hu] at f1
    obtain rfl := Option.some.inj f1
    have hns : ¬ m1.Selected s j := by
      rintro ⟨-, -, h | ⟨-, h⟩⟩
      · rw [hc1] at h; exact hn h
      · rw [hc1, (same m1 hc1 (by rw [hb1, hb])).2] at h
        exact absurd hsat (not_lt.2 h)
    exact ih (fun s' hs' => hsee s' (List.mem_cons_of_mem _ hs')) (hm1.update hr hs hu) (by rw [f2, hc1]) (by
      rw [(f3 j k (by rw [hc1]; exact hk)).1 hns, hb1])

/-- An obstacle in one cell, then five scans that see everything as free, and thresholding. -/
def obstacleOps : List MappingOp :=
  .op (.write (.add (fun _ => 0) 3 0)) :: List.replicate 5 (.integrate (clearScan true) id 1 fun _ => 2) ++ [.op (.write .threshold)]

theorem obstacleOps_valid : ∀ o ∈ obstacleOps, o.Valid := by
  intro o ho
  simp only [obstacleOps, List.cons_append, List.mem_cons, List.mem_append, List.mem_replicate, List.not_mem_nil, or_false] at ho
  rcases ho with rfl | ⟨-, rfl⟩ | rfl
  · trivial
  · exact ⟨by simp [clearScan], fun l => List.Perm.refl l⟩
  · trivial

/-- Finding: an obstacle of one cell is not removed from the map however often the cell is seen as free. When the cells around it reach the lower bound, their mean hides
it: the block counts as entirely free and is not updated any more. Here the obstacle's value stays at `1`, which is occupied; with the same scans the cells around it went from
`0` to `-2`. -/
theorem C81_default_hidden_obstacle_fails : ∃ (m : HashedChunkedWaveletOctree) (j : Index 3), m.Mapped ∧ m.getCellValue j = 1 ∧
    (∀ coarse, SeesFree m.config.minCellWidth (2 / 5) m.config.treeHeight j (clearScan coarse)) ∧
    ∀ scans m', (∀ s ∈ scans, ∃ coarse, s = clearScan coarse) → Rescanned m scans m' → m'.getCellValue j = 1 := by
  obtain ⟨m, h1, h2⟩ := C44_chunked_terminates ⟨1, -2, 4, 4, 5⟩ (by decide +kernel) (by decide) obstacleOps obstacleOps_valid
  have hm : m.Mapped := ⟨_, by decide +kernel, by decide, obstacleOps, obstacleOps_valid, h1⟩
  have hb : ((obstacleOps.foldlM MappingOp.runChunked (HashedChunkedWaveletOctree.create ⟨1, -2, 4, 4, 5⟩)).any fun m =>
      decide (m.getCellValue (fun _ => 0) = 1 ∧ m.getNodeValue (indexAndHeightToNodeIndex (fun _ => 0) 4) < -2 + 1 / 1000) &&
        (m.blocks.getBlock (fun _ => 0)).any fun b => !b.needsThresholding) = true := by decide +kernel
  rw [h1, Option.any_some, Bool.and_eq_true, decide_eq_true_eq] at hb
  obtain ⟨⟨hv, hs⟩, hf⟩ := hb
  cases e : m.blocks.getBlock (fun _ => 0) with
  | none => rw [e] at hf; cases hf
  | some b =>
    rw [e, Option.any_some] at hf
    refine ⟨m, fun _ => 0, hm, hv, fun c => by rw [h2]; exact clearScan_sees c _, fun scans m' hsc h => ?_⟩
    rw [← hv]
    refine C81_default_stuck m m' hm scans _ (fun _ => 0) ?_ b e (by simpa using hf) (by rw [h2]; exact hs) ?_ h
    · rw [h2, inBlock_iff]; decide +kernel
    · intro s hs'
      obtain ⟨c, rfl⟩ := hsc s hs'
      refine ⟨by simp [clearScan], ?_⟩
      simp only [clearScan]
      split <;> simp

/-- Finding: free space is not recorded in blocks in which no surface was ever possible. Their cells stay unobserved. -/
theorem C81_default_free_fails : ∃ m' : HashedChunkedWaveletOctree, Rescanned (.create ⟨1, -2, 4, 4, 5⟩) (List.replicate 3 (clearScan false)) m' ∧
    m'.getCellValue (fun _ => 0) = 0 ∧ SeesFree 1 (2 / 5) 4 (fun _ => 0) (clearScan false) := by
  have hb : ((HashedChunkedWaveletOctree.create ⟨1, -2, 4, 4, 5⟩).updateMap (clearScan false) id 0 (fun _ => 0)).any (fun m => m.blocks.isEmpty) = true := by decide +kernel
  cases e : (HashedChunkedWaveletOctree.create ⟨1, -2, 4, 4, 5⟩).updateMap (clearScan false) id 0 (fun _ => 0) with
  | none => rw [e] at hb; cases hb
  | some m1 =>
    rw [e, Option.any_some, List.isEmpty_iff] at hb
    have hcfg : m1.config = ⟨1, -2, 4, 4, 5⟩ := by
      have hm : HashedChunkedWaveletOctree.Mapped (.create ⟨1, -2, 4, 4, 5⟩) := ⟨_, by decide +kernel, by decide, [], by simp, rfl⟩
      obtain ⟨m2, f1, f2, -⟩ := C44_chunked_blocks _ hm (clearScan false) (by simp [clearScan]) id (fun l => List.Perm.refl l) 0 (fun _ => 0)
      rw [e] at f1
      obtain rfl := Option.some.inj f1
      exact f2
    have hm1 : m1 = .create ⟨1, -2, 4, 4, 5⟩ := by
      cases m1
      simp only at hb hcfg
      subst hb hcfg
      rfl
    subst hm1
    refine ⟨_, .scan id 0 (fun _ => 0) (fun l => List.Perm.refl l) e (.scan id 0 (fun _ => 0) (fun l => List.Perm.refl l) e
      (.scan id 0 (fun _ => 0) (fun l => List.Perm.refl l) e .nil)), by decide +kernel, clearScan_sees false 4⟩

/-! ## The hypotheses can be met -/

/-- An obstacle that is about to be removed: its value is `1`, a scan takes it to `3/5`, and no node around it counts as free. -/
example : ∃ m m' : HashedChunkedWaveletOctree, m.Mapped ∧ m.getCellValue (fun _ => 0) = 1 ∧ Rescanned m [clearScan true] m' ∧ ¬ SaturatedFree m (fun _ => 0) ∧
    m'.getCellValue (fun _ => 0) = 3 / 5 := by
  obtain ⟨m, h1, h2⟩ := C44_chunked_terminates ⟨1, -2, 4, 4, 5⟩ (by decide +kernel) (by decide) [.op (.write (.add (fun _ => 0) 1 0))] (by simp [MappingOp.Valid])
  have hm : m.Mapped := ⟨_, by decide +kernel, by decide, _, by simp [MappingOp.Valid], h1⟩
  have hb : (([.op (.write (.add (fun _ => 0) 1 0))] : List MappingOp).foldlM MappingOp.runChunked (HashedChunkedWaveletOctree.create ⟨1, -2, 4, 4, 5⟩)).any (fun m =>
      decide (m.getCellValue (fun _ => 0) = 1 ∧ ∀ h : Fin 5, -2 + 1 / 1000 ≤ m.getNodeValue (indexAndHeightToNodeIndex (fun _ => 0) h.val)) &&
        (m.updateMap (clearScan true) id 0 fun _ => 0).any fun m' => decide (m'.getCellValue (fun _ => 0) = 3 / 5)) = true := by decide +kernel
  rw [h1, Option.any_some, Bool.and_eq_true, decide_eq_true_eq] at hb
  obtain ⟨⟨hv, hs⟩, hf⟩ := hb
  cases e : m.updateMap (clearScan true) id 0 fun _ => 0 with
  | none => rw [e] at hf; cases hf
  | some m' =>
    rw [e, Option.any_some, decide_eq_true_eq] at hf
    refine ⟨m, m', hm, hv, .scan id 0 _ (fun l => List.Perm.refl l) e .nil, ?_, hf⟩
    rintro ⟨h, hh, hlt⟩
    rw [h2] at hh hlt
    exact absurd (hs ⟨h, by simp at hh; omega⟩) (not_le.2 hlt)

/-- Surfaces. -/
example : SeesOccupied 1 3 4 (fun _ => 0) (fineScan 1 3) where
  point := ⟨fun _ => 0, fun _ => ⟨⟨by simp, by simp⟩, by simp [fineScan]⟩⟩
  observed := fun _ => by simp [fineScan, indexAndHeightToNodeIndex, divExp2Floor_eq]
  fine := le_refl _
  occupied := fun _ _ => by simp [fineScan]
  possible := fun _ => by simp [fineScan, indexAndHeightToNodeIndex, divExp2Floor_eq]

end Wavemap
