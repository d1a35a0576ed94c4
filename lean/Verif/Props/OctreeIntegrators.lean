import Verif.Props.WaveletIntegrator
import Verif.Props.WaveletMaintenance
import Verif.Lemmas.OctreeIntegrators
/-!
# C44 for the wavelet octree: integrating a measurement

The specification works on the values that the map's own queries return. The nodes around a cell `j` are `indexAndHeightToNodeIndex j k`.
-/
namespace Wavemap
open Haar NTree NdtreeIndex

/-! ## Specification -/

/-- What happens to a map: its own operations, and measurements. -/
inductive WaveletMappingOp where
  | op (o : WaveletMapOp)
  | integrate (scan : Scan)

/-- The operation on the modelled map. -/
def WaveletMappingOp.run (m : WaveletOctree) : WaveletMappingOp → Option WaveletOctree
  | .op o => some (o.run m)
  | .integrate scan => m.updateMap scan

/-- Writes address nodes of the map. -/
def WaveletMappingOp.InMap (H : Nat) : WaveletMappingOp → Prop
  | .op o => o.InMap H
  | .integrate _ => True

/-- A map that results from any sequence of operations and measurements. -/
def WaveletOctree.Mapped (m : WaveletOctree) : Prop :=
  ∃ config : WaveletOctreeConfig, config.isValid = true ∧ config.treeHeight ≤ 20 ∧
    ∃ ops : List WaveletMappingOp, (∀ o ∈ ops, o.InMap config.treeHeight) ∧ ops.foldlM WaveletMappingOp.run (.create config) = some m

namespace WaveletOctree

/-- The value the integrator works with for the node of height `k` around cell `j`. It is not the node's value, but off by the difference between the
value of the octant of the map that the cell is in and the root scale (the mean of the map). -/
def seenValue (m : WaveletOctree) (j : Index 3) (k : Nat) : ℚ :=
  m.getNodeValue (indexAndHeightToNodeIndex j k) -
    (m.getNodeValue (indexAndHeightToNodeIndex j (m.config.treeHeight - 1)) - m.rootScale)

/-- The integrator does not treat the node of height `k` around cell `j` as a whole. -/
def Refines (m : WaveletOctree) (scan : Scan) (j : Index 3) (k : Nat) : Prop :=
  let n := indexAndHeightToNodeIndex j k
  scan.terminationHeight m.config.minCellWidth < k ∧ scan.updateType n ≠ .fullyUnobserved ∧
    (scan.updateType n = .possiblyOccupied ∨ m.config.minLogOdds + noiseThreshold / 10 ≤ m.seenValue j k) ∧
    scan.coarseEnough (scan.updateType n) n = false

/-- The largest node around cell `j` that is treated as a whole has height `s`. -/
def StopsAt (m : WaveletOctree) (scan : Scan) (j : Index 3) (s : Nat) : Prop :=
  s < m.config.treeHeight ∧ (∀ k, s < k → k < m.config.treeHeight → m.Refines scan j k) ∧ ¬ m.Refines scan j s

/-- The map stores details for descendants of the node of height `s` around cell `j`, beyond its eight children. -/
def HasFiner (m : WaveletOctree) (j : Index 3) (s : Nat) : Prop :=
  (m.root.descend (m.path (indexAndHeightToNodeIndex j s))).hasAtLeastOneChild = true

instance (m : WaveletOctree) (j : Index 3) (s : Nat) : Decidable (m.HasFiner j s) := by unfold HasFiner; infer_instance

/-- The node of height `s` around `j` is skipped: it is not observed, or the update is for free space and the node is taken to be free already. -/
def Skipped (m : WaveletOctree) (scan : Scan) (j : Index 3) (s : Nat) : Prop :=
  let n := indexAndHeightToNodeIndex j s
  scan.terminationHeight m.config.minCellWidth < s ∧ (scan.updateType n = .fullyUnobserved ∨
    (scan.updateType n ≠ .possiblyOccupied ∧ m.seenValue j s < m.config.minLogOdds + noiseThreshold / 10))

instance (m : WaveletOctree) (scan : Scan) (j : Index 3) (s : Nat) : Decidable (m.Skipped scan j s) := by
  unfold Skipped; infer_instance

/-- What is added to all cells of the node of height `s` around `j`, if it is treated as a whole. -/
def ScanChange (m : WaveletOctree) (scan : Scan) (j : Index 3) (s : Nat) : ℚ :=
  let n := indexAndHeightToNodeIndex j s
  if m.Skipped scan j s then 0
  else if scan.terminationHeight m.config.minCellWidth < s ∧ m.HasFiner j s then scan.sample n
  else clamp (m.config.minLogOdds - noiseThreshold) (m.config.maxLogOdds + noiseThreshold) (scan.sample n + m.seenValue j s) - m.seenValue j s

/-! ## Indices -/

variable {m : WaveletOctree} {scan : Scan}

theorem Inv.node_path (h : m.Inv) {j : Index 3} (hj : CellInMap m.config.treeHeight j) (k : Nat) (hk : k < m.config.treeHeight) :
    m.path (indexAndHeightToNodeIndex j k) = (cpath m.config.treeHeight j).take (m.config.treeHeight - k) := by
  have hi : m.toInternal (indexAndHeightToNodeIndex j k) = indexAndHeightToNodeIndex (fun i => j i + 2 ^ (m.config.treeHeight - 1)) k := by
    unfold toInternal indexAndHeightToNodeIndex
    congr 1
    funext i
    dsimp only
    rw [rootIndexOffset_eq m h.pos, show ((k : Int)).toNat = k from Int.toNat_natCast k, offset_div hk, divExp2Floor_eq, divExp2Floor_eq,
      two_pow_split hk, Int.add_mul_ediv_right _ _ (Int.ne_of_gt (two_pow_pos' k))]
  have hr := shift_range h.pos hj
  have e := nodePath_ancestor h.le hr k (le_of_lt hk)
  rw [nodePath_cell h.le hr] at e
  have hl : (nodePath m.config.treeHeight (indexAndHeightToNodeIndex (fun i => j i + 2 ^ (m.config.treeHeight - 1)) k)).length = m.config.treeHeight - k := by
    have h1 := congrArg List.length e
    rw [List.length_append, cellPath_length, cellPath_length] at h1
    omega
  unfold path
  rw [hi]
  show _ = (cellPath m.config.treeHeight _).take _
  rw [e, List.take_left' hl]

/-- The octant of the map that a cell is in. -/
theorem Inv.octant (h : m.Inv) {j : Index 3} (hj : CellInMap m.config.treeHeight j) :
    ∃ c, cpath m.config.treeHeight j = c :: cellPath (m.config.treeHeight - 1) j ∧
      m.firstChildIndex c = indexAndHeightToNodeIndex j (m.config.treeHeight - 1) := by
  obtain ⟨H, hH⟩ : ∃ H, m.config.treeHeight = H + 1 := ⟨m.config.treeHeight - 1, by have := h.pos; omega⟩
  have hr := shift_range h.pos hj
  refine ⟨relFin (indexAndHeightToNodeIndex (fun i => j i + 2 ^ (m.config.treeHeight - 1)) H), ?_, ?_⟩
  · unfold cpath
    rw [hH, Nat.add_sub_cancel, cellPath]
    congr 1
    have := cellPath_shift H H (le_refl _) j fun _ => 1
    simp only [mul_one] at this
    exact this
  · have hroot : m.internalRoot = indexAndHeightToNodeIndex (fun i => j i + 2 ^ (m.config.treeHeight - 1)) (H + 1) := by
      unfold internalRoot indexAndHeightToNodeIndex
      rw [hH]
      congr 1
      funext i
      rw [divExp2Floor_eq]
      have := hr i
      rw [hH] at this
      exact (Int.ediv_eq_zero_of_lt this.1 this.2).symm
    unfold firstChildIndex
    rw [hroot, ancestor_child]
    unfold toExternalNodeIndex indexAndHeightToNodeIndex
    rw [hH, Nat.add_sub_cancel]
    congr 1
    funext i
    dsimp only
    rw [rootIndexOffset_eq m h.pos, show ((H : Int)).toNat = H from Int.toNat_natCast H, hH, Nat.add_sub_cancel, divExp2Floor_eq, divExp2Floor_eq, divExp2Floor_eq,
      Int.ediv_self (Int.ne_of_gt (two_pow_pos' H))]
    have := Int.add_mul_ediv_right (j i) 1 (Int.ne_of_gt (two_pow_pos' H))
    rw [one_mul] at this
    rw [this]
    omega

/-! ## The map after a measurement -/

theorem sampleFirstChildren_spec (hw : 0 < m.config.minCellWidth) (hpos : 0 < m.config.treeHeight) (l : List (Fin (2 ^ 3))) :
    l.Nodup → ∀ (root : WTree) (updates : Coeffs 3), root ≠ .nil → ∃ root' updates', m.sampleFirstChildren scan l (root, updates) = some (root', updates') ∧
      root' ≠ .nil ∧ WTree.details root' = WTree.details root ∧
      (∀ c, NTree.child root' c = if c ∈ l then (updAt (childAction scan m.config.minLogOdds m.config.maxLogOdds (scan.terminationHeight m.config.minCellWidth))
        (m.config.treeHeight - 1) (root.child c) (m.firstChildIndex c) m.rootScale).1 else root.child c) ∧
      (∀ c, updates' c = if c ∈ l then (updAt (childAction scan m.config.minLogOdds m.config.maxLogOdds (scan.terminationHeight m.config.minCellWidth))
        (m.config.treeHeight - 1) (root.child c) (m.firstChildIndex c) m.rootScale).2.1 - m.rootScale else updates c) := by
  induction l with
  | nil => intro _ root updates hr; exact ⟨root, updates, rfl, hr, rfl, fun c => by simp, fun c => by simp⟩
  | cons c l ih =>
    intro hl root updates hr
    rw [List.nodup_cons] at hl
    have hh : (m.firstChildIndex c).height = ((m.config.treeHeight - 1 : Nat) : Int) := by
      show (m.config.treeHeight : Int) - 1 = _
      omega
    have hs := recursiveSampler_spec (scan := scan) (lo := m.config.minLogOdds) (hi := m.config.maxLogOdds) (scan.terminationHeight_nonneg _ hw)
      (m.config.treeHeight + 1) (m.config.treeHeight - 1) (m.firstChildIndex c) (by omega) hh m.rootScale root c
    obtain ⟨s1, s2, s3⟩ := stepAt_spec (act := childAction scan m.config.minLogOdds m.config.maxLogOdds (scan.terminationHeight m.config.minCellWidth))
      (m.config.treeHeight - 1) (m.firstChildIndex c) m.rootScale root hr c
    obtain ⟨root', updates', h1, h2, h3, h4, h5⟩ := ih hl.2
      (stepAt (childAction scan m.config.minLogOdds m.config.maxLogOdds (scan.terminationHeight m.config.minCellWidth))
        (m.config.treeHeight - 1) (m.firstChildIndex c) m.rootScale root c).1
      (fun c' => if c' = c then (stepAt (childAction scan m.config.minLogOdds m.config.maxLogOdds (scan.terminationHeight m.config.minCellWidth))
        (m.config.treeHeight - 1) (m.firstChildIndex c) m.rootScale root c).2 - m.rootScale else updates c') (stepAt_ne_nil _ _ _ _ hr _)
    refine ⟨root', updates', ?_, h2, h3.trans s1, fun c' => ?_, fun c' => ?_⟩
    · rw [sampleFirstChildren, hs]
      exact h1
    · rw [h4, s3]
      by_cases hc : c' = c
      · subst hc; simp [hl.1]
      · simp [hc]
    · rw [h5, s3]
      by_cases hc : c' = c
      · subst hc; simp [hl.1, s2]
      · simp [hc]

/-- The tree and the root scale after a measurement. -/
theorem Inv.updateMap (h : m.Inv) (hw : 0 < m.config.minCellWidth) (scan : Scan) : ∃ m', m.updateMap scan = some m' ∧ m'.Inv ∧ m'.config = m.config ∧
    ∀ c, backwardSingleChild 3 ⟨m'.rootScale, WTree.details m'.root⟩ c = backwardSingleChild 3 ⟨m.rootScale, WTree.details m.root⟩ c +
        ((updAt (childAction scan m.config.minLogOdds m.config.maxLogOdds (scan.terminationHeight m.config.minCellWidth))
          (m.config.treeHeight - 1) (m.root.child c) (m.firstChildIndex c) m.rootScale).2.1 - m.rootScale) ∧
      NTree.child m'.root c = (updAt (childAction scan m.config.minLogOdds m.config.maxLogOdds (scan.terminationHeight m.config.minCellWidth))
          (m.config.treeHeight - 1) (m.root.child c) (m.firstChildIndex c) m.rootScale).1 := by
  obtain ⟨root', updates', h1, h2, h3, h4, h5⟩ := sampleFirstChildren_spec (scan := scan) hw h.pos (List.finRange (2 ^ 3)) (List.nodup_finRange _) m.root
    (fun _ => 0) h.root
  refine ⟨{ m with root := root'.setData fun k => WTree.details root' k + (forward 3 updates').details k, rootScale := m.rootScale + (forward 3 updates').scale },
    by unfold WaveletOctree.updateMap; rw [h1]; rfl, ⟨h.pos, h.le, h.bounds, WTree.setData_ne_nil _ h2 _, ?_⟩, rfl, fun c => ?_⟩
  · dsimp only
    obtain ⟨H, hH⟩ : ∃ H, m.config.treeHeight = H + 1 := ⟨m.config.treeHeight - 1, by have := h.pos; omega⟩
    rw [hH]
    intro c
    rw [WTree.setData_child, h4, if_pos (List.mem_finRange c), hH, Nat.add_sub_cancel]
    have hd := h.depth
    rw [hH] at hd
    refine updAt_depth (fun _ _ _ hx => childAction_height (scan.terminationHeight_nonneg _ hw) hx) _ _ _ _ ?_ (hd c)
    show (m.config.treeHeight : Int) - 1 = _
    rw [hH]; push_cast; omega
  · dsimp only
    constructor
    · rw [WTree.details_setData _ h2, h3]
      have := bwd_single_add ⟨m.rootScale, WTree.details m.root⟩ (forward 3 updates') c
      have h6 := bwd3_fwd updates' c
      rw [h5, if_pos (List.mem_finRange c)] at h6
      rw [← h6, ← this]
      rfl
    · rw [WTree.setData_child, h4, if_pos (List.mem_finRange c)]

/-- The value of a node around a cell of an octant. -/
theorem Inv.node_value (h : m.Inv) {j : Index 3} (hj : CellInMap m.config.treeHeight j) {c : Fin (2 ^ 3)}
    (hc : cpath m.config.treeHeight j = c :: cellPath (m.config.treeHeight - 1) j) (k : Nat) (hk : k < m.config.treeHeight) :
    m.getNodeValue (indexAndHeightToNodeIndex j k) = WTree.getValue (m.root.child c) (backwardSingleChild 3 ⟨m.rootScale, WTree.details m.root⟩ c)
      ((cellPath (m.config.treeHeight - 1) j).take (m.config.treeHeight - 1 - k)) ∧
    m.root.descend (m.path (indexAndHeightToNodeIndex j k)) =
      (m.root.child c).descend ((cellPath (m.config.treeHeight - 1) j).take (m.config.treeHeight - 1 - k)) := by
  have e : m.config.treeHeight - k = (m.config.treeHeight - 1 - k) + 1 := by omega
  constructor
  · unfold getNodeValue
    rw [h.node_path hj k hk, hc, e, List.take_succ_cons, WTree.getValue_cons _ h.root]
  · rw [h.node_path hj k hk, hc, e, List.take_succ_cons, descend_cons]

theorem Inv.seen_value (h : m.Inv) {j : Index 3} (hj : CellInMap m.config.treeHeight j) {c : Fin (2 ^ 3)}
    (hc : cpath m.config.treeHeight j = c :: cellPath (m.config.treeHeight - 1) j) (k : Nat) (hk : k < m.config.treeHeight) :
    m.seenValue j k = WTree.getValue (m.root.child c) m.rootScale
      ((cellPath (m.config.treeHeight - 1) j).take (m.config.treeHeight - 1 - k)) := by
  have hp := h.pos
  unfold seenValue
  rw [(h.node_value hj hc k hk).1, (h.node_value hj hc (m.config.treeHeight - 1) (by omega)).1, Nat.sub_self, List.take_zero, WTree.getValue_nil_path]
  have := WTree.getValue_shift (m.root.child c) m.rootScale (backwardSingleChild 3 ⟨m.rootScale, WTree.details m.root⟩ c - m.rootScale)
    ((cellPath (m.config.treeHeight - 1) j).take (m.config.treeHeight - 1 - k))
  rw [show m.rootScale + (backwardSingleChild 3 ⟨m.rootScale, WTree.details m.root⟩ c - m.rootScale) =
    backwardSingleChild 3 ⟨m.rootScale, WTree.details m.root⟩ c from by ring] at this
  rw [this]; ring

theorem Inv.cell_updated (h : m.Inv) (hw : 0 < m.config.minCellWidth) {m' : WaveletOctree} (hu : m.updateMap scan = some m') {j : Index 3}
    (hj : CellInMap m.config.treeHeight j) (s : Nat) (hs : m.StopsAt scan j s) :
    m'.getCellValue j = m.getCellValue j + m.ScanChange scan j s := by
  obtain ⟨m'', hu', hi', hcfg, hch⟩ := h.updateMap hw scan
  rw [hu] at hu'
  obtain rfl : m' = m'' := Option.some.inj hu'
  obtain ⟨c, hc, hfc⟩ := h.octant hj
  obtain ⟨hsH, href, hstop⟩ := hs
  have hp := h.pos
  have hV := fun k hk => h.seen_value hj hc k hk
  have hF := (h.node_value hj hc s hsH).2
  have hnew : m'.getCellValue j = WTree.getValue (m'.root.child c) (backwardSingleChild 3 ⟨m'.rootScale, WTree.details m'.root⟩ c)
      (cellPath (m.config.treeHeight - 1) j) := by
    rw [getCellValue_eq hi' (by rw [hcfg]; exact hj), hcfg, hc, WTree.getValue_cons _ hi'.root]
  have hold : m.getCellValue j = WTree.getValue (m.root.child c) m.rootScale (cellPath (m.config.treeHeight - 1) j) +
      (backwardSingleChild 3 ⟨m.rootScale, WTree.details m.root⟩ c - m.rootScale) := by
    rw [getCellValue_eq h hj, hc, WTree.getValue_cons _ h.root, ← WTree.getValue_shift]
    congr 1
    ring
  obtain ⟨hb, hcld⟩ := hch c
  rw [hnew, hb, hcld, hold, hfc]
  have hcell := updAt_cell (act := childAction scan m.config.minLogOdds m.config.maxLogOdds (scan.terminationHeight m.config.minCellWidth)) j s
    (m.config.treeHeight - 1) (m.root.child c) m.rootScale (by omega) (fun k hk1 hk2 => by
      have hr := href k hk1 (by omega)
      unfold Refines at hr
      rw [childAction_refine, ← hV k (by omega)]
      exact hr)
  have hstop' : childAction scan m.config.minLogOdds m.config.maxLogOdds (scan.terminationHeight m.config.minCellWidth)
      ((m.root.child c).descend ((cellPath (m.config.treeHeight - 1) j).take (m.config.treeHeight - 1 - s))) (indexAndHeightToNodeIndex j s)
      (WTree.getValue (m.root.child c) m.rootScale ((cellPath (m.config.treeHeight - 1) j).take (m.config.treeHeight - 1 - s))) ≠ .refine := by
    rw [Ne, childAction_refine, ← hV s hsH]
    exact hstop
  have ha := childAction_stop _ _ _ hstop'
  rw [← hV s hsH] at hcell ha
  generalize hU : updAt (childAction scan m.config.minLogOdds m.config.maxLogOdds (scan.terminationHeight m.config.minCellWidth))
    (m.config.treeHeight - 1) (m.root.child c) (indexAndHeightToNodeIndex j (m.config.treeHeight - 1)) m.rootScale = U at hcell ⊢
  generalize hB : backwardSingleChild 3 ⟨m.rootScale, WTree.details m.root⟩ c = B
  rw [show B + (U.2.1 - m.rootScale) = U.2.1 + (B - m.rootScale) from by ring, WTree.getValue_shift]
  have hF' : m.HasFiner j s ↔
      ((m.root.child c).descend ((cellPath (m.config.treeHeight - 1) j).take (m.config.treeHeight - 1 - s))).hasAtLeastOneChild = true := by
    unfold HasFiner
    rw [hF]
  unfold ScanChange
  dsimp only
  simp only [hF']
  by_cases hk : m.Skipped scan j s
  · rw [if_pos hk]
    rw [if_pos (by exact hk)] at ha
    rw [hcell.2 ha]
    ring
  · rw [if_neg hk]
    rw [if_neg (by exact hk)] at ha
    by_cases hf : scan.terminationHeight m.config.minCellWidth < (s : Int) ∧
        ((m.root.child c).descend ((cellPath (m.config.treeHeight - 1) j).take (m.config.treeHeight - 1 - s))).hasAtLeastOneChild = true
    · rw [if_pos hf]
      rw [if_pos (by exact hf)] at ha
      rw [hcell.1 _ _ ha]
      ring
    · rw [if_neg hf]
      rw [if_neg (by exact hf)] at ha
      rw [hcell.1 _ _ ha]
      ring

theorem run_config (o : WaveletMapOp) (m : WaveletOctree) : (o.run m).config = m.config := by
  cases o with
  | write o => cases o <;> rfl
  | _ => rfl

theorem Inv.mapped_run (h : m.Inv) (hw : 0 < m.config.minCellWidth) (o : WaveletMappingOp) (ho : o.InMap m.config.treeHeight) :
    ∃ m', o.run m = some m' ∧ m'.Inv ∧ m'.config = m.config := by
  cases o with
  | op o => exact ⟨o.run m, rfl, h.run o ho, run_config o m⟩
  | integrate scan =>
    obtain ⟨m', h1, h2, h3, _⟩ := h.updateMap hw scan
    exact ⟨m', h1, h2, h3⟩

theorem Inv.mapped_runs (ops : List WaveletMappingOp) : ∀ m : WaveletOctree, m.Inv → 0 < m.config.minCellWidth → (∀ o ∈ ops, o.InMap m.config.treeHeight) →
    ∃ m', ops.foldlM WaveletMappingOp.run m = some m' ∧ m'.Inv ∧ m'.config = m.config := by
  induction ops with
  | nil => intro m h _ _; exact ⟨m, rfl, h, rfl⟩
  | cons o ops ih =>
    intro m h hw ho
    obtain ⟨m1, h1, h2, h3⟩ := h.mapped_run hw o (ho o List.mem_cons_self)
    obtain ⟨m', h4, h5, h6⟩ := ih m1 h2 (by rw [h3]; exact hw) (fun o' ho' => by rw [h3]; exact ho o' (List.mem_cons_of_mem _ ho'))
    exact ⟨m', by rw [List.foldlM_cons, h1]; exact h4, h5, h6.trans h3⟩

theorem Mapped.inv (h : m.Mapped) : m.Inv ∧ 0 < m.config.minCellWidth := by
  obtain ⟨config, hc, hH, ops, hops, hr⟩ := h
  have hw : 0 < config.minCellWidth := by
    simp only [WaveletOctreeConfig.isValid, Bool.and_eq_true, decide_eq_true_eq] at hc
    exact hc.1.1
  obtain ⟨m', h1, h2, h3⟩ := Inv.mapped_runs ops (.create config) (.create hc hH) hw hops
  rw [hr] at h1
  obtain rfl : m = m' := Option.some.inj h1
  exact ⟨h2, by rw [h3]; exact hw⟩

end WaveletOctree

/-! ## Theorems -/

/-- Integration terminates for every measurement, whatever the operations and measurements before it. -/
theorem C44_wavelet_terminates (config : WaveletOctreeConfig) (hc : config.isValid = true) (hH : config.treeHeight ≤ 20) (ops : List WaveletMappingOp)
    (hops : ∀ o ∈ ops, o.InMap config.treeHeight) : ∃ m, ops.foldlM WaveletMappingOp.run (.create config) = some m ∧ m.Mapped ∧ m.config = config := by
  have hw : 0 < config.minCellWidth := by
    simp only [WaveletOctreeConfig.isValid, Bool.and_eq_true, decide_eq_true_eq] at hc
    exact hc.1.1
  obtain ⟨m', h1, h2, h3⟩ := WaveletOctree.Inv.mapped_runs ops (.create config) (.create hc hH) hw hops
  exact ⟨m', h1, ⟨config, hc, hH, ops, hops, h1⟩, h3⟩

/-- After a measurement, every cell of the map has its old value plus the change for the largest node around it that is treated as a whole. -/
theorem C44_wavelet_cells (m : WaveletOctree) (hm : m.Mapped) (scan : Scan) : ∃ m', m.updateMap scan = some m' ∧
    ∀ j, CellInMap m.config.treeHeight j → ∃ s, m.StopsAt scan j s ∧ m'.getCellValue j = m.getCellValue j + m.ScanChange scan j s := by
  obtain ⟨h, hw⟩ := hm.inv
  obtain ⟨m', h1, h2, h3, _⟩ := h.updateMap hw scan
  refine ⟨m', h1, fun j hj => ?_⟩
  obtain ⟨s, s1, s2, s3⟩ := HashedWaveletOctree.exists_stop (m.Refines scan j) (by
      unfold WaveletOctree.Refines
      intro hc
      exact absurd hc.1 (not_lt.2 (scan.terminationHeight_nonneg _ hw))) m.config.treeHeight h.pos
  exact ⟨s, ⟨s1, s2, s3⟩, h.cell_updated hw h1 hj s ⟨s1, s2, s3⟩⟩

/-- The node that the search stops at is determined by the map and the measurement. -/
theorem C44_wavelet_stop_unique (m : WaveletOctree) (scan : Scan) (j : Index 3) (s s' : Nat) (h : m.StopsAt scan j s) (h' : m.StopsAt scan j s') : s = s' := by
  rcases Nat.lt_trichotomy s s' with hlt | heq | hlt
  · exact absurd (h.2.1 s' hlt h'.1) h'.2.2
  · exact heq
  · exact absurd (h'.2.1 s hlt h.1) h.2.2

/-- Cells in nodes that the measurement does not observe keep their value, if the nodes are coarser than the termination height. -/
theorem C44_wavelet_unobserved (m : WaveletOctree) (hm : m.Mapped) (scan : Scan) (j : Index 3) (hj : CellInMap m.config.treeHeight j) (k : Nat)
    (hk : k < m.config.treeHeight) (hT : scan.terminationHeight m.config.minCellWidth < k)
    (hu : scan.updateType (indexAndHeightToNodeIndex j k) = .fullyUnobserved)
    (habove : ∀ k', k < k' → k' < m.config.treeHeight → m.Refines scan j k') :
    ∃ m', m.updateMap scan = some m' ∧ m'.getCellValue j = m.getCellValue j := by
  obtain ⟨m', h1, h2⟩ := C44_wavelet_cells m hm scan
  obtain ⟨s, hs, hv⟩ := h2 j hj
  have hst : m.StopsAt scan j k := ⟨hk, habove, fun hr => hr.2.1 hu⟩
  obtain rfl := C44_wavelet_stop_unique m scan j s k hs hst
  refine ⟨m', h1, ?_⟩
  rw [hv]
  unfold WaveletOctree.ScanChange
  rw [if_pos ⟨hT, Or.inl hu⟩, add_zero]

/-- The representation stays consistent: after any history of operations and measurements, a node's value is the mean of its cells, and the root scale
is the mean of all cells of the map. -/
theorem C44_wavelet_node_mean (m : WaveletOctree) (hm : m.Mapped) :
    (∀ n, NodeInMap m.config.treeHeight n → m.getNodeValue n = boxMean m.getCellValue n.height.toNat fun k => n.position k * 2 ^ n.height.toNat) ∧
    m.rootScale = boxMean m.getCellValue m.config.treeHeight fun _ => -2 ^ (m.config.treeHeight - 1) := by
  obtain ⟨h, _⟩ := hm.inv
  have hr : m.Rep m.getCellValue := by
    refine ⟨h.root, fun j hj => ?_⟩
    have e := two_pow_double (a := m.config.treeHeight) (b := m.config.treeHeight - 1) (by have := h.pos; omega)
    dsimp only
    rw [WaveletOctree.getCellValue_eq h (fun k => by have := hj k; omega), nodePath_cell h.le hj]
    unfold WaveletOctree.cpath
    simp only [sub_add_cancel]
  refine ⟨fun n hn => WaveletOctree.Rep.node h.le hr n hn, ?_⟩
  have hn := Represents.node h.le hr ⟨m.config.treeHeight, fun _ => 0⟩ ⟨by simp, by simp, fun k => by simp⟩
  rw [nodePath_of_ge (by simp), WTree.getValue_nil_path] at hn
  rw [hn, boxMean_shift]
  congr 1
  funext k
  simp

/-! ## Findings -/

/-- Measurements of the whole map. -/
def flatScan (u : UpdateType) (sample : ℚ) : Scan where
  updateType _ := u
  sample _ := sample
  coarseEnough _ _ := true
  origin _ := 0
  maxRange := 1
  maxUpdateResolution := 1

/-- A measurement of one free cell between seven occupied ones. -/
def cornerOps : List WaveletMappingOp :=
  [.integrate ⟨fun _ => .possiblyOccupied, fun n => if n.position = (fun _ => 0) then -2 else 4, fun _ _ => false, fun _ => 0, 1, 1⟩]

theorem cornerOps_inMap : ∀ o ∈ cornerOps, o.InMap 1 := by
  intro o ho
  simp only [cornerOps, List.mem_cons, List.not_mem_nil, or_false] at ho
  subst ho
  trivial

theorem corner_cell : CellInMap 1 (fun _ => 0) := fun k => ⟨by dsimp only; decide, by dsimp only; decide⟩

/-- The map after `cornerOps`, and after one free-space or occupied measurement. -/
theorem cornerOps_map : ∃ m, cornerOps.foldlM WaveletMappingOp.run (.create ⟨1, -2, 4, 1⟩) = some m ∧ m.Mapped ∧ m.config = ⟨1, -2, 4, 1⟩ ∧
    (∀ i, CellInMap 1 i → m.getCellValue i = if i = fun _ => 0 then -2 else 4) ∧
    (m.updateMap (flatScan .fullyFree (-3))).map (·.getCellValue fun _ => 0) = some (-5) ∧
    (m.updateMap (flatScan .possiblyOccupied 3)).map (·.getCellValue fun _ => 0) = some (-12499 / 10000) := by
  obtain ⟨m, h1, h2, h3⟩ := C44_wavelet_terminates ⟨1, -2, 4, 1⟩ (by decide +kernel) (by decide) cornerOps cornerOps_inMap
  have hb : ((cornerOps.foldlM WaveletMappingOp.run (.create ⟨1, -2, 4, 1⟩)).any fun m =>
      decide (∀ x : Fin 3 → Fin 2, m.getCellValue (fun k => (x k : Int) - 1) = if (fun k => (x k : Int) - 1) = (fun _ => 0) then -2 else 4) &&
      decide ((m.updateMap (flatScan .fullyFree (-3))).map (·.getCellValue fun _ => 0) = some (-5)) &&
      decide ((m.updateMap (flatScan .possiblyOccupied 3)).map (·.getCellValue fun _ => 0) = some (-12499 / 10000))) = true := by
    decide +kernel
  rw [h1] at hb
  simp only [Option.any_some, Bool.and_eq_true, decide_eq_true_eq] at hb
  refine ⟨m, h1, h2, h3, fun i hi => ?_, hb.1.2, hb.2⟩
  have := hb.1.1 fun k => ⟨(i k + 1).toNat, by have := hi k; simp at this; omega⟩
  have e : (fun k => (((i k + 1).toNat : Nat) : Int) - 1) = i := by
    funext k
    have := hi k; simp at this; omega
  simp only [e] at this
  exact this

/-- Finding: the wavelet integrator takes the mean of the whole map for the value of each of its eight octants. All cells are within the bounds, and one
free-space measurement of `-3` takes the free cell to `-5`, three below the lower bound, although updates of single cells are clamped. -/
theorem C44_wavelet_bounds_fails : ∃ m m' scan j, WaveletOctree.Mapped m ∧ CellInMap m.config.treeHeight j ∧ m.updateMap scan = some m' ∧
    (∀ i, CellInMap m.config.treeHeight i → m.config.minLogOdds ≤ m.getCellValue i ∧ m.getCellValue i ≤ m.config.maxLogOdds) ∧
    m'.getCellValue j < m.config.minLogOdds - 2 := by
  obtain ⟨m, _, hm, hc, hv, h1, _⟩ := cornerOps_map
  obtain ⟨m', hm', hx⟩ := Option.map_eq_some_iff.1 h1
  refine ⟨m, m', _, fun _ => 0, hm, by rw [hc]; exact corner_cell, hm', fun i hi => ?_, ?_⟩
  · rw [hc] at hi ⊢
    rw [hv i hi]
    split <;> constructor <;> norm_num
  · rw [hc, hx]; norm_num

/-- Finding: in the same way, a measurement that the cell is occupied has hardly any effect on it: of the update `3`, about `3/4` is applied, although
the result is still below zero and far from the upper bound. -/
theorem C44_wavelet_update_lost_fails : ∃ m m' scan j, WaveletOctree.Mapped m ∧ CellInMap m.config.treeHeight j ∧ m.updateMap scan = some m' ∧
    scan.updateType ⟨0, j⟩ = .possiblyOccupied ∧ scan.sample ⟨0, j⟩ = 3 ∧ m.getCellValue j = m.config.minLogOdds ∧
    m'.getCellValue j < m.getCellValue j + 1 ∧ m'.getCellValue j < 0 ∧ m.getCellValue j + 3 < m.config.maxLogOdds := by
  obtain ⟨m, _, hm, hc, hv, _, h1⟩ := cornerOps_map
  obtain ⟨m', hm', hx⟩ := Option.map_eq_some_iff.1 h1
  have hj := corner_cell
  have h0 := hv _ hj
  rw [if_pos rfl] at h0
  refine ⟨m, m', _, fun _ => 0, hm, by rw [hc]; exact hj, hm', rfl, rfl, by rw [hc, h0], ?_, ?_, ?_⟩
  · rw [hx, h0]; norm_num
  · rw [hx]; norm_num
  · rw [hc, h0]; norm_num

/-! ## Examples -/

/-- The hypotheses are met by a map with stored values, and the theorem predicts the cells found above. -/
example : ∃ m : WaveletOctree, m.Mapped ∧ m.getCellValue (fun _ => 0) = -2 ∧ CellInMap m.config.treeHeight (fun _ => 0) ∧
    m.rootScale = 13 / 4 := by
  obtain ⟨m, h1, hm, hc, hv, _, _⟩ := cornerOps_map
  have hj := corner_cell
  refine ⟨m, hm, by rw [hv _ hj, if_pos rfl], by rw [hc]; exact hj, ?_⟩
  have hb : ((cornerOps.foldlM WaveletMappingOp.run (.create ⟨1, -2, 4, 1⟩)).any fun m => decide (m.rootScale = 13 / 4)) = true := by decide +kernel
  rw [h1] at hb
  simpa using hb

/-- A taller map, in which a measurement stops at nodes of different heights: an unobserved octant keeps its cells. -/
example : ∃ (m : WaveletOctree) (scan : Scan), m.Mapped ∧ scan.terminationHeight m.config.minCellWidth < 1 ∧
    m.StopsAt scan (fun _ => 0) 0 ∧ m.StopsAt scan (fun _ => -1) 1 ∧ scan.updateType (indexAndHeightToNodeIndex (fun _ => -1) 1) = .fullyUnobserved := by
  refine ⟨.create ⟨1, -2, 4, 2⟩, ⟨fun n => if n.position 0 = 0 then .possiblyOccupied else .fullyUnobserved, fun _ => 1, fun _ _ => false, fun _ => 0, 1, 1⟩,
    ⟨_, by decide +kernel, by decide, [], by simp, rfl⟩, by decide +kernel, ⟨by decide, fun k h1 h2 => ?_, fun h => ?_⟩, ⟨by decide, fun k h1 h2 => ?_, fun h => ?_⟩, by decide +kernel⟩
  · obtain rfl : k = 1 := by
      have : k < 2 := h2
      omega
    exact ⟨by decide +kernel, by decide +kernel, Or.inl (by decide +kernel), rfl⟩
  · exact absurd h.1 (by decide +kernel)
  · have : k < 2 := h2
    omega
  · exact absurd h.2.1 (by decide +kernel)

end Wavemap
