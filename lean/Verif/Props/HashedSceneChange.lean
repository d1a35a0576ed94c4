import Verif.Props.DefaultSceneChange
/-!
# C81 for the hashed wavelet octree and its integrator

`InSight`, `SeesFree` and `SeesOccupied` are those of the default map.
-/
namespace Wavemap
open NTree NdtreeIndex

/-! ## Specification -/

/-- The map `m'` is what the scans, one after the other, make of `m`, if it is thresholded at any times in between. -/
inductive HashedRescanned : HashedWaveletOctree → List Scan → HashedWaveletOctree → Prop
  | nil {m} : HashedRescanned m [] m
  | scan {m m1 m2 s ss} (schedule : List (Index 3) → List (Index 3)) (now : ℚ) (stamp : Index 3 → ℚ) : (∀ l, (schedule l).Perm l) →
      m.updateMap s schedule now stamp = some m1 → HashedRescanned m1 ss m2 → HashedRescanned m (s :: ss) m2
  | threshold {m m2 ss} : HashedRescanned m.threshold ss m2 → HashedRescanned m ss m2

/-- A node around the cell, or its block, counts as entirely free: the mean of its cells is at the lower bound. -/
def HashedSaturatedFree (m : HashedWaveletOctree) (j : Index 3) : Prop :=
  ∃ h : Nat, h ≤ m.config.treeHeight ∧ m.getNodeValue (indexAndHeightToNodeIndex j h) < m.config.minLogOdds + 1 / 100000

/-- A node around the cell, inside its block, counts as entirely occupied: the mean of its cells is above the upper bound. -/
def HashedSaturatedOccupied (m : HashedWaveletOctree) (j : Index 3) : Prop :=
  ∃ h : Nat, 0 < h ∧ h < m.config.treeHeight ∧ m.config.maxLogOdds < m.getNodeValue (indexAndHeightToNodeIndex j h)

/-! ## Nodes -/

theorem boxMean_add (f : Index 3 → ℚ) (v : ℚ) (h : Nat) (c : Index 3) : boxMean (fun i => f i + v) h c = boxMean f h c + v := by
  induction h generalizing c with
  | zero => rfl
  | succ h ih =>
    simp only [boxMean, ih]
    rw [show List.range 8 = [0, 1, 2, 3, 4, 5, 6, 7] by decide]
    simp only [List.map_cons, List.map_nil, List.sum_cons, List.sum_nil]
    ring

theorem ancestor_up {i j : Index 3} {s k : Nat} (h : indexAndHeightToNodeIndex i s = indexAndHeightToNodeIndex j s) (hk : s ≤ k) :
    indexAndHeightToNodeIndex i k = indexAndHeightToNodeIndex j k := by
  unfold indexAndHeightToNodeIndex at h ⊢
  have hp := congrArg NdtreeIndex.position h
  congr 1
  funext x
  have := congrFun hp x
  simp only [divExp2Floor_eq] at this ⊢
  obtain ⟨d, rfl⟩ := Nat.exists_eq_add_of_le hk
  rw [pow_add, ← Int.ediv_ediv_of_nonneg (two_pow_pos' s).le, ← Int.ediv_ediv_of_nonneg (two_pow_pos' s).le, this]

theorem cellPath_prefix {i j : Index 3} {s : Nat} (h : indexAndHeightToNodeIndex i s = indexAndHeightToNodeIndex j s) (H : Nat) :
    (cellPath H i).take (H - s) = (cellPath H j).take (H - s) := by
  induction H with
  | zero => rfl
  | succ H ih =>
    by_cases hs : s ≤ H
    · rw [Nat.succ_sub hs]
      simp only [cellPath, List.take_succ_cons]
      rw [ih]
      congr 2
      exact ancestor_up h hs
    · rw [show H + 1 - s = 0 by omega]; rfl

theorem inBox_ancestor (j : Index 3) (s : Nat) {i : Index 3} (h : InBox s (fun k => (indexAndHeightToNodeIndex j s).position k * 2 ^ s) i) :
    indexAndHeightToNodeIndex i s = indexAndHeightToNodeIndex j s := by
  unfold indexAndHeightToNodeIndex at h ⊢
  congr 1
  funext k
  obtain ⟨h1, h2⟩ := h k
  simp only [divExp2Floor_eq] at h1 h2 ⊢
  exact (Int.ediv_eq_iff_of_pos (two_pow_pos' s)).2 ⟨by linarith, by linarith⟩


/-! ## Steps -/

namespace HashedWaveletOctree
variable {m m' : HashedWaveletOctree} {scan : Scan}

theorem selected_up {i j : Index 3} (h : indexAndHeightToNodeIndex i m.config.treeHeight = indexAndHeightToNodeIndex j m.config.treeHeight)
    (hf : m.config.treeHeight ≤ (m.config.fovMinMax scan).1) (hsel : m.Selected scan j) : m.Selected scan i := by
  obtain ⟨h1, h2, h3⟩ := hsel
  refine ⟨?_, ?_, ?_⟩
  · rw [ancestor_up h hf]; exact h1
  · intro k hk hk'; rw [ancestor_up h hk]; exact h2 k hk hk'
  · rw [h]
    rcases h3 with h3 | ⟨h3, h4⟩
    · exact Or.inl h3
    · refine Or.inr ⟨?_, h4⟩
      rw [allocated_iff] at h3 ⊢
      have : indexToBlockIndex m.config.treeHeight i = indexToBlockIndex m.config.treeHeight j := congrArg NdtreeIndex.position h
      rwa [this]

theorem stops_up {i j : Index 3} {s : Nat} (h : indexAndHeightToNodeIndex i s = indexAndHeightToNodeIndex j s) (hs : m.StopsAt scan j s) :
    m.StopsAt scan i s ∧ m.ScanChange scan i s = m.ScanChange scan j s := by
  obtain ⟨h1, h2, h3⟩ := hs
  have hr : ∀ k, s ≤ k → (m.Refines scan i k ↔ m.Refines scan j k) := fun k hk => by
    unfold Refines; rw [ancestor_up h hk]
  refine ⟨⟨h1, fun k hk hk' => (hr k hk.le).2 (h2 k hk hk'), fun hc => h3 ((hr s le_rfl).1 hc)⟩, ?_⟩
  have hb : indexToBlockIndex m.config.treeHeight i = indexToBlockIndex m.config.treeHeight j := congrArg NdtreeIndex.position (ancestor_up h h1.le)
  have hF : m.HasFiner i s ↔ m.HasFiner j s := by
    unfold HasFiner; rw [hb, cellPath_prefix h]
  have hk : m.Skipped scan i s ↔ m.Skipped scan j s := by unfold Skipped; rw [h]
  unfold ScanChange
  simp only [hF, hk, h]

/-- The value of the node that the search stops at changes by the same amount as its cells. -/
theorem Mapped.node_update (hm : m.Mapped) (hr : 0 ≤ scan.maxRange) {schedule : List (Index 3) → List (Index 3)} (hs : ∀ l, (schedule l).Perm l) {now : ℚ}
    {stamp : Index 3 → ℚ} (h : m.updateMap scan schedule now stamp = some m') {j : Index 3} (hsel : m.Selected scan j) {s : Nat} (hst : m.StopsAt scan j s) :
    m'.config = m.config ∧ m'.Mapped ∧ m'.getCellValue j = m.getCellValue j + m.ScanChange scan j s ∧
      m'.getNodeValue (indexAndHeightToNodeIndex j s) = m.getNodeValue (indexAndHeightToNodeIndex j s) + m.ScanChange scan j s := by
  have hm' : m'.Mapped := hm.step (o := .integrate scan schedule now stamp) ⟨hr, hs⟩ h
  obtain ⟨x, f1, hcfg, -⟩ := C44_hashed_blocks m hm scan hr schedule hs now stamp
  rw [h] at f1
  obtain rfl := Option.some.inj f1
  obtain ⟨x, e1, e2⟩ := C44_hashed_cells m hm scan hr schedule hs now stamp
  rw [h] at e1
  obtain rfl := Option.some.inj e1
  have hf : m.config.treeHeight ≤ (m.config.fovMinMax scan).1 := by
    unfold HashedWaveletOctreeConfig.fovMinMax
    dsimp only
    have := le_max_right (Int.clog 2 (scan.maxRange / m.config.minCellWidth)) (m.config.treeHeight : Int)
    omega
  have hcell : ∀ i, indexAndHeightToNodeIndex i s = indexAndHeightToNodeIndex j s → m'.getCellValue i = m.getCellValue i + m.ScanChange scan j s := by
    intro i hi
    obtain ⟨h1, h2⟩ := stops_up hi hst
    obtain ⟨s', h3, h4⟩ := (e2 i).1 (selected_up (ancestor_up hi hst.1.le) hf hsel)
    rw [C44_stop_unique m scan i s' s h3 h1] at h4
    rw [h4, h2]
  refine ⟨hcfg, hm', hcell j rfl, ?_⟩
  have hh : (indexAndHeightToNodeIndex j s).height.toNat = s := rfl
  rw [C44_node_mean m' hm' _ (by simp [indexAndHeightToNodeIndex]) (by rw [hcfg]; exact Int.ofNat_le.2 hst.1.le),
    C44_node_mean m hm _ (by simp [indexAndHeightToNodeIndex]) (Int.ofNat_le.2 hst.1.le), hh, ← boxMean_add]
  exact boxMean_congr fun i hi => hcell i (inBox_ancestor j s hi)

theorem Mapped.threshold_step (hm : m.Mapped) (j : Index 3) :
    m.threshold.Mapped ∧ m.threshold.config = m.config ∧ (m.Allocated j → m.threshold.Allocated j) ∧
      (m.threshold.getCellValue j = m.getCellValue j ∨ m.threshold.getCellValue j = clamp m.config.minLogOdds m.config.maxLogOdds (m.getCellValue j)) := by
  have hp := hm.sound
  have hm' : m.threshold.Mapped := hm.step (o := .op (.write .threshold)) trivial rfl
  have hb : m.threshold.blocks.getBlock (indexToBlockIndex m.config.treeHeight j) =
      (m.blocks.getBlock (indexToBlockIndex m.config.treeHeight j)).map fun b => b.threshold :=
    SpatialHash.getBlock_mapBlocks m.blocks _ fun _ b => b.threshold
  refine ⟨hm', rfl, fun ha => ?_, ?_⟩
  · rw [allocated_iff] at ha ⊢
    have e : m.threshold.config = m.config := rfl
    rw [e, hb, Option.isSome_map]
    exact ha
  · have e : m.threshold.config = m.config := rfl
    rw [HashedWaveletOctree.cell_value hm'.sound.le hm'.sound.heights, e, hb, HashedWaveletOctree.cell_value hp.le hp.heights]
    cases e : m.blocks.getBlock (indexToBlockIndex m.config.treeHeight j) with
    | none => exact Or.inl rfl
    | some b =>
      have hf := hp.fits _ _ e
      simp only [Option.map_some]
      unfold WaveletBlock.threshold
      split
      · right
        dsimp only
        rw [hf.minOk, hf.maxOk]
        exact WTree.recThreshold_getValue _ _ _ _ _ (hf.depth.descend _ (cellPath_length _ _))
      · exact Or.inl rfl

theorem Mapped.search (hm : m.Mapped) {scan : Scan} {j : Index 3} (h : InSight m.config.minCellWidth j scan) (i : Fin 3) :
    (m.config.fovMinMax scan).2.1 i ≤ (indexAndHeightToNodeIndex j (m.config.fovMinMax scan).1).position i ∧
      (indexAndHeightToNodeIndex j (m.config.fovMinMax scan).1).position i ≤ (m.config.fovMinMax scan).2.2 i := by
  obtain ⟨x, hx⟩ := h.point
  exact C44_search_covers_range m hm scan j x (fun i => (hx i).1) (fun i => (hx i).2) i

theorem Mapped.exists_stop (hm : m.Mapped) (scan : Scan) (j : Index 3) : ∃ s, m.StopsAt scan j s := by
  obtain ⟨s, s1, s2, s3⟩ := HashedWaveletOctree.exists_stop (m.Refines scan j) (by
    unfold HashedWaveletOctree.Refines
    intro hc
    exact absurd hc.1 (not_lt.2 (scan.terminationHeight_nonneg _ hm.sound.width))) m.config.treeHeight hm.sound.pos
  exact ⟨s, s1, s2, s3⟩

end HashedWaveletOctree

/-! ## Theorems -/

/-- **C81** For the hashed wavelet octree: if a cell that was occupied is seen as free space in each of `n` scans, its value has dropped by at least `n δ`, or to the
lower bound; unless at some time a node around it counted as entirely free. -/
theorem C81_hashed_clears (m m' : HashedWaveletOctree) (hm : m.Mapped) (scans : List Scan) (δ : ℚ) (hδ : 0 ≤ δ) (j : Index 3) (hj : 0 < m.getCellValue j)
    (hsee : ∀ s ∈ scans, SeesFree m.config.minCellWidth δ m.config.treeHeight j s) (h : HashedRescanned m scans m') :
    m'.getCellValue j ≤ max (m.getCellValue j - δ * scans.length) m.config.minLogOdds ∨
      ∃ m1 s1 s2, scans = s1 ++ s2 ∧ HashedRescanned m s1 m1 ∧ HashedRescanned m1 s2 m' ∧ HashedSaturatedFree m1 j := by
  have ha : m.Allocated j := by
    have hp := hm.sound
    rw [HashedWaveletOctree.allocated_iff]
    rw [HashedWaveletOctree.cell_value hp.le hp.heights] at hj
    cases e : m.blocks.getBlock (indexToBlockIndex m.config.treeHeight j) with
    | none => rw [e] at hj; exact absurd hj (lt_irrefl _)
    | some b => rfl
  clear hj
  suffices ∀ a : ℚ, m.getCellValue j ≤ max a m.config.minLogOdds → m'.getCellValue j ≤ max (a - δ * scans.length) m.config.minLogOdds ∨
      ∃ m1 s1 s2, scans = s1 ++ s2 ∧ HashedRescanned m s1 m1 ∧ HashedRescanned m1 s2 m' ∧ HashedSaturatedFree m1 j from this _ (le_max_left _ _)
  induction h with
  | nil => intro a hv; left; simpa using hv
  | @threshold m m2 ss hrest ih =>
    intro a hv
    have hlo : m.config.minLogOdds ≤ m.config.maxLogOdds := hm.sound.bounds.le
    obtain ⟨h1, h2, h3, h4⟩ := hm.threshold_step j
    have := ih h1 (by rw [h2]; exact hsee) (h3 ha) a (by
      rw [h2]
      rcases h4 with h4 | h4
      · rw [h4]; exact hv
      · rw [h4]; exact clamp_le_max hlo hv)
    rw [h2] at this
    rcases this with h5 | ⟨x, s1, s2, e, r1, r2, hsat⟩
    · exact Or.inl h5
    · exact Or.inr ⟨x, s1, s2, e, .threshold r1, r2, hsat⟩
  | @scan m m1 m2 s ss schedule now stamp hs hu hrest ih =>
    intro a hv
    have hsee0 := hsee s (List.mem_cons_self ..)
    by_cases hsat : HashedSaturatedFree m j
    · exact Or.inr ⟨m, [], s :: ss, rfl, .nil, .scan schedule now stamp hs hu hrest, hsat⟩
    have hns : ∀ h : Nat, h ≤ m.config.treeHeight → m.config.minLogOdds + noiseThreshold / 10 ≤ m.getNodeValue (indexAndHeightToNodeIndex j h) := by
      intro h hh
      by_contra hc
      refine hsat ⟨h, hh, lt_of_lt_of_le (not_le.1 hc) ?_⟩
      unfold noiseThreshold; norm_num
    have hsel : m.Selected s j := ⟨hm.search hsee0.toInSight, fun h _ _ => hsee0.observed h, Or.inr ⟨ha, hns _ (le_refl _)⟩⟩
    obtain ⟨t, ht⟩ := hm.exists_stop s j
    obtain ⟨f2, hm1, hval, hnode⟩ := hm.node_update hsee0.range hs hu hsel ht
    have ha1 : m1.Allocated j := by
      obtain ⟨x, f1, -, f3⟩ := C44_hashed_blocks m hm s hsee0.range schedule hs now stamp
      rw [hu] at f1
      obtain rfl := Option.some.inj f1
      obtain ⟨k, hk, -⟩ := ha
      obtain ⟨b, hb, -⟩ := (f3 j k hk).2 hsel
      exact ⟨k, by rw [f2]; exact hk, by rw [hb]; rfl⟩
    have hnsk : ¬ m.Skipped s j t := by
      rintro ⟨-, h | h⟩
      · exact hsee0.observed t h
      · exact absurd h.2 (not_lt.2 (hns t ht.1.le))
    have hd := hsee0.free t ht.1
    have hcases : m.ScanChange s j t ≤ -δ ∨ m.getNodeValue (indexAndHeightToNodeIndex j t) + m.ScanChange s j t = m.config.minLogOdds - noiseThreshold := by
      unfold HashedWaveletOctree.ScanChange
      dsimp only
      rw [if_neg hnsk]
      split
      · exact Or.inl hd
      · unfold clamp
        split
        · right; ring
        · left
          split <;> linarith
    rcases hcases with hc | hc
    · have hnew : m1.getCellValue j ≤ max (a - δ) m.config.minLogOdds := by
        rw [hval]
        rcases le_max_iff.1 hv with h | h
        · exact le_max_of_le_left (by linarith)
        · exact le_max_of_le_right (by linarith)
      have := ih hm1 (by rw [f2]; exact fun s' hs' => hsee s' (List.mem_cons_of_mem _ hs')) ha1 (a - δ) (by rw [f2]; exact hnew)
      rw [f2] at this
      rcases this with h5 | ⟨x, s1, s2, e, r1, r2, hsat'⟩
      · left
        rw [List.length_cons]
        push_cast
        rwa [show a - δ * ((ss.length : ℚ) + 1) = a - δ - δ * ss.length by ring]
      · exact Or.inr ⟨x, s :: s1, s2, by rw [e]; rfl, .scan schedule now stamp hs hu r1, r2, hsat'⟩
    · refine Or.inr ⟨m1, [s], ss, rfl, .scan schedule now stamp hs hu .nil, hrest, t, by rw [f2]; exact ht.1.le, ?_⟩
      rw [hnode, hc, f2]
      unfold noiseThreshold
      linarith

/-- **C81** For the hashed wavelet octree: if a surface is seen in a cell in each of `n` scans, its value has risen by at least `n δ`, or to the upper bound; unless at some
time a node around it counted as entirely occupied. -/
theorem C81_hashed_appears (m m' : HashedWaveletOctree) (hm : m.Mapped) (scans : List Scan) (δ : ℚ) (hδ : 0 ≤ δ) (j : Index 3)
    (hsee : ∀ s ∈ scans, SeesOccupied m.config.minCellWidth δ m.config.treeHeight j s) (h : HashedRescanned m scans m') :
    min (m.getCellValue j + δ * scans.length) m.config.maxLogOdds ≤ m'.getCellValue j ∨
      ∃ m1 s1 s2, scans = s1 ++ s2 ∧ HashedRescanned m s1 m1 ∧ HashedRescanned m1 s2 m' ∧ HashedSaturatedOccupied m1 j := by
  suffices ∀ a : ℚ, min a m.config.maxLogOdds ≤ m.getCellValue j → min (a + δ * scans.length) m.config.maxLogOdds ≤ m'.getCellValue j ∨
      ∃ m1 s1 s2, scans = s1 ++ s2 ∧ HashedRescanned m s1 m1 ∧ HashedRescanned m1 s2 m' ∧ HashedSaturatedOccupied m1 j from this _ (min_le_left _ _)
  induction h with
  | nil => intro a hv; left; simpa using hv
  | @threshold m m2 ss hrest ih =>
    intro a hv
    have hlo : m.config.minLogOdds ≤ m.config.maxLogOdds := hm.sound.bounds.le
    obtain ⟨h1, h2, -, h4⟩ := hm.threshold_step j
    have := ih h1 (by rw [h2]; exact hsee) a (by
      rw [h2]
      rcases h4 with h4 | h4
      · rw [h4]; exact hv
      · rw [h4]; exact min_le_clamp hlo hv)
    rw [h2] at this
    rcases this with h5 | ⟨x, s1, s2, e, r1, r2, hsat⟩
    · exact Or.inl h5
    · exact Or.inr ⟨x, s1, s2, e, .threshold r1, r2, hsat⟩
  | @scan m m1 m2 s ss schedule now stamp hs hu hrest ih =>
    intro a hv
    have hsee0 := hsee s (List.mem_cons_self ..)
    have hsel : m.Selected s j := ⟨hm.search hsee0.toInSight, fun h _ _ => hsee0.observed h, Or.inl (hsee0.possible _)⟩
    obtain ⟨t, ht⟩ := hm.exists_stop s j
    obtain ⟨f2, hm1, hval, hnode⟩ := hm.node_update hsee0.range hs hu hsel ht
    have hnsk : ¬ m.Skipped s j t := by
      rintro ⟨-, h | h⟩
      · exact hsee0.observed t h
      · exact h.1 (hsee0.possible t)
    have hd := hsee0.occupied t ht.1
    have hcases : δ ≤ m.ScanChange s j t ∨ m.getNodeValue (indexAndHeightToNodeIndex j t) + m.ScanChange s j t = m.config.maxLogOdds + noiseThreshold := by
      unfold HashedWaveletOctree.ScanChange
      dsimp only
      rw [if_neg hnsk]
      split
      · exact Or.inl hd
      · unfold clamp
        split
        · left; linarith
        · split
          · right; ring
          · left; linarith
    have hn : (0 : ℚ) < noiseThreshold := by unfold noiseThreshold; norm_num
    by_cases hsat : m.getNodeValue (indexAndHeightToNodeIndex j t) + m.ScanChange s j t = m.config.maxLogOdds + noiseThreshold ∧ 0 < t
    · refine Or.inr ⟨m1, [s], ss, rfl, .scan schedule now stamp hs hu .nil, hrest, t, hsat.2, by rw [f2]; exact ht.1, ?_⟩
      rw [hnode, hsat.1, f2]
      linarith
    · have hnew : min (a + δ) m.config.maxLogOdds ≤ m1.getCellValue j := by
        rcases hcases with hc | hc
        · rw [hval]
          rcases min_le_iff.1 hv with h | h
          · exact min_le_of_left_le (by linarith)
          · exact min_le_of_right_le (by linarith)
        · obtain rfl : t = 0 := by by_contra h; exact hsat ⟨hc, Nat.pos_of_ne_zero h⟩
          refine min_le_of_right_le ?_
          have hcell : m.getNodeValue (indexAndHeightToNodeIndex j 0) = m.getCellValue j := by
            rw [C44_node_mean m hm (indexAndHeightToNodeIndex j 0) (by simp [indexAndHeightToNodeIndex]) (by simp [indexAndHeightToNodeIndex])]
            simp [indexAndHeightToNodeIndex, boxMean, divExp2Floor_eq]
          rw [hcell] at hc
          rw [hval, hc]
          linarith
      have := ih hm1 (by rw [f2]; exact fun s' hs' => hsee s' (List.mem_cons_of_mem _ hs')) (a + δ) (by rw [f2]; exact hnew)
      rw [f2] at this
      rcases this with h5 | ⟨x, s1, s2, e, r1, r2, hsat'⟩
      · left
        rw [List.length_cons]
        push_cast
        rwa [show a + δ * ((ss.length : ℚ) + 1) = a + δ + δ * ss.length by ring]
      · exact Or.inr ⟨x, s :: s1, s2, by rw [e]; rfl, .scan schedule now stamp hs hu r1, r2, hsat'⟩


/-! ## Findings -/

/-- A scan that sees a surface in the cells at 0 and 1 in each coordinate, with the update `2`; they are updated as a whole. -/
def wallScan : Scan where
  updateType n := if ∀ i, n.position i / 2 = 0 then .possiblyOccupied else .fullyUnobserved
  sample _ := 2
  coarseEnough _ _ := true
  origin _ := 0
  maxRange := 1
  maxUpdateResolution := 1

theorem wallScan_sees (H : Nat) : SeesOccupied 1 2 H (fun _ => 0) wallScan where
  point := ⟨fun _ => 0, fun _ => ⟨⟨by simp, by simp⟩, by simp [wallScan]⟩⟩
  observed := fun _ => by simp [wallScan, indexAndHeightToNodeIndex, divExp2Floor_eq]
  fine := le_refl _
  occupied := fun _ _ => le_refl _
  possible := fun _ => by simp [wallScan, indexAndHeightToNodeIndex, divExp2Floor_eq]

/-- Eight occupied cells, one of which becomes free, then a scan that sees all of them as occupied. -/
def wallOps : List MappingOp :=
  [.integrate wallScan id 1 fun _ => 1, .integrate wallScan id 2 fun _ => 2, .op (.write (.add (fun _ => 0) (-6) 3)), .op (.write .threshold),
    .integrate wallScan id 4 fun _ => 4]

theorem wallOps_valid : ∀ o ∈ wallOps, o.Valid := by
  have hs : 0 ≤ wallScan.maxRange := by simp [wallScan]
  intro o ho
  simp only [wallOps, List.mem_cons, List.not_mem_nil, or_false] at ho
  rcases ho with rfl | rfl | rfl | rfl | rfl
  · exact ⟨hs, fun l => List.Perm.refl l⟩
  · exact ⟨hs, fun l => List.Perm.refl l⟩
  · trivial
  · trivial
  · exact ⟨hs, fun l => List.Perm.refl l⟩

/-- Finding: a cell can stay free in the map although scans see a surface in it, again and again. The update of a node is limited such that the mean of its cells stays
within the bounds; if the cells around a free one are above the upper bound, it is not updated any more. -/
theorem C81_hashed_hidden_free_fails : ∃ (m : HashedWaveletOctree) (j : Index 3), m.Mapped ∧ m.getCellValue j < -1 ∧
    SeesOccupied m.config.minCellWidth 2 m.config.treeHeight j wallScan ∧
    ∀ (times : List ((Index 3 → ℚ) × ℚ)) (m' : HashedWaveletOctree),
      times.foldlM (fun m t => m.updateMap wallScan id t.2 t.1) m = some m' → m'.getCellValue j = m.getCellValue j := by
  obtain ⟨m, h1, h2⟩ := C44_terminates ⟨1, -2, 4, 2, 5⟩ (by decide +kernel) (by decide) wallOps wallOps_valid
  have hm : m.Mapped := ⟨_, by decide +kernel, by decide, wallOps, wallOps_valid, h1⟩
  have hb : ((wallOps.foldlM MappingOp.run (HashedWaveletOctree.create ⟨1, -2, 4, 2, 5⟩)).any fun m =>
      decide (m.getCellValue (fun _ => 0) = -12499 / 10000 ∧ m.getNodeValue (indexAndHeightToNodeIndex (fun _ => 0) 1) = 4 + 1 / 10000)) = true := by decide +kernel
  rw [h1, Option.any_some, decide_eq_true_eq] at hb
  refine ⟨m, fun _ => 0, hm, by rw [hb.1]; norm_num, by rw [h2]; exact wallScan_sees _, ?_⟩
  obtain ⟨hv, hn⟩ := hb
  rw [hv]
  intro times
  clear h1
  induction times generalizing m with
  | nil => intro m' h; cases h; exact hv
  | cons t times ih =>
    intro m' h
    rw [List.foldlM_cons] at h
    obtain ⟨m1, hu, h⟩ := Option.bind_eq_some_iff.1 h
    have hsee := wallScan_sees 2
    have hsel : m.Selected wallScan (fun _ => 0) :=
      ⟨hm.search (by rw [h2]; exact hsee.toInSight), fun h _ _ => hsee.observed h, Or.inl (hsee.possible _)⟩
    obtain ⟨s, hs⟩ := hm.exists_stop wallScan (fun _ => 0)
    have hs1 : s = 1 := by
      have hlt := hs.1
      rw [h2] at hlt
      by_contra hne
      have := hs.2.1 1 (by dsimp only at hlt; omega) (by rw [h2]; decide)
      have := this.2.2.2
      simp [wallScan] at this
    subst hs1
    obtain ⟨f2, hm1, hval, hnode⟩ := hm.node_update (by simp [wallScan]) (fun l => List.Perm.refl l) hu hsel hs
    have hc : m.ScanChange wallScan (fun _ => 0) 1 = 0 := by
      unfold HashedWaveletOctree.ScanChange
      dsimp only
      split
      · rfl
      · rw [if_neg, hn, h2]
        · unfold noiseThreshold clamp
          simp only [wallScan]
          norm_num
        · rintro ⟨-, b, hb1, hb2⟩
          have hd := (hm.sound.fits _ _ hb1).depth
          rw [h2] at hb2 hd
          have : ∀ p : List (Fin (2 ^ 3)), p.length = 1 → (NTree.descend b.root p).hasAtLeastOneChild = false := by
            intro p hp
            obtain ⟨c, rfl⟩ := List.length_eq_one_iff.1 hp
            have : ∀ i, ((NTree.descend b.root [c]).child i) = .nil := fun i => hd c i
            unfold NTree.hasAtLeastOneChild
            simp only [this]
            simp [NTree.isNil]
          rw [this _ (by rw [List.length_take, cellPath_length]; rfl)] at hb2
          cases hb2
    rw [hc, add_zero] at hval hnode
    exact ih m1 (by rw [f2, h2]) hm1 (by rw [hval, hv]) (by rw [hnode, hn]) m' h

/-! ## The hypotheses can be met -/

/-- An obstacle that is removed: its value is `1`, a scan takes it to `3/5`, and no node around it counts as free. -/
example : ∃ m m' : HashedWaveletOctree, m.Mapped ∧ m.getCellValue (fun _ => 0) = 1 ∧ HashedRescanned m [clearScan true] m' ∧
    ¬ HashedSaturatedFree m (fun _ => 0) ∧ SeesFree m.config.minCellWidth (2 / 5) m.config.treeHeight (fun _ => 0) (clearScan true) ∧
    m'.getCellValue (fun _ => 0) = 3 / 5 := by
  obtain ⟨m, h1, h2⟩ := C44_terminates ⟨1, -2, 4, 4, 5⟩ (by decide +kernel) (by decide) [.op (.write (.add (fun _ => 0) 1 0))] (by simp [MappingOp.Valid])
  have hm : m.Mapped := ⟨_, by decide +kernel, by decide, _, by simp [MappingOp.Valid], h1⟩
  have hb : (([.op (.write (.add (fun _ => 0) 1 0))] : List MappingOp).foldlM MappingOp.run (HashedWaveletOctree.create ⟨1, -2, 4, 4, 5⟩)).any (fun m =>
      decide (m.getCellValue (fun _ => 0) = 1 ∧ ∀ h : Fin 5, -2 + 1 / 100000 ≤ m.getNodeValue (indexAndHeightToNodeIndex (fun _ => 0) h.val)) &&
        (m.updateMap (clearScan true) id 0 fun _ => 0).any fun m' => decide (m'.getCellValue (fun _ => 0) = 3 / 5)) = true := by decide +kernel
  rw [h1, Option.any_some, Bool.and_eq_true, decide_eq_true_eq] at hb
  obtain ⟨⟨hv, hs⟩, hf⟩ := hb
  cases e : m.updateMap (clearScan true) id 0 fun _ => 0 with
  | none => rw [e] at hf; cases hf
  | some m' =>
    rw [e, Option.any_some, decide_eq_true_eq] at hf
    refine ⟨m, m', hm, hv, .scan id 0 _ (fun l => List.Perm.refl l) e .nil, ?_, by rw [h2]; exact clearScan_sees true _, hf⟩
    rintro ⟨h, hh, hlt⟩
    rw [h2] at hh hlt
    exact absurd (hs ⟨h, by simp at hh; omega⟩) (not_le.2 hlt)

/-- A surface that appears: a scan takes the cells of a new block to `2`. -/
example : ∃ m' : HashedWaveletOctree, HashedRescanned (.create ⟨1, -2, 4, 2, 5⟩) [wallScan] m' ∧ ¬ HashedSaturatedOccupied m' (fun _ => 0) ∧
    m'.getCellValue (fun _ => 0) = 2 := by
  have hb : ((HashedWaveletOctree.create ⟨1, -2, 4, 2, 5⟩).updateMap wallScan id 0 fun _ => 0).any (fun m =>
      decide (m.getCellValue (fun _ => 0) = 2 ∧ m.getNodeValue (indexAndHeightToNodeIndex (fun _ => 0) 1) ≤ 4 ∧ m.config.treeHeight = 2 ∧ m.config.maxLogOdds = 4)) = true := by
    decide +kernel
  cases e : (HashedWaveletOctree.create ⟨1, -2, 4, 2, 5⟩).updateMap wallScan id 0 fun _ => 0 with
  | none => rw [e] at hb; cases hb
  | some m' =>
    rw [e, Option.any_some, decide_eq_true_eq] at hb
    refine ⟨m', .scan id 0 _ (fun l => List.Perm.refl l) e .nil, ?_, hb.1⟩
    rintro ⟨h, h0, hh, hlt⟩
    rw [hb.2.2.1] at hh
    obtain rfl : h = 1 := by omega
    rw [hb.2.2.2] at hlt
    exact absurd hb.2.1 (not_le.2 hlt)

end Wavemap
