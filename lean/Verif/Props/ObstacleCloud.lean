import Verif.Model.ObstacleCloud
import Verif.Props.FixedResolution
import Verif.Props.Io
import Verif.Props.VolumetricOctree
/-!
# C72 The obstacle point cloud

The cloud published for obstacle avoidance contains the centers of exactly the cells whose value exceeds the threshold, each once. With
`only_publish_changed_blocks`, it contains those of the blocks that changed since the last publication, and all clouds together contain every obstacle.
-/
namespace Wavemap
open Haar NTree NdtreeIndex

/-! ## Specification -/

/-- The center of cell `j` in a map with cells of width `w`. -/
def cellMid (w : ℚ) (j : Index 3) : Point 3 := fun k => ((j k : ℚ) + 1 / 2) * w

/-- The value of cells that the map has not stored. -/
def AnyMap.background : AnyMap → ℚ
  | .hashedBlocks m => m.hash.defaultValue
  | _ => 0

/-- The part of the map that a publication is about: everything, or, if only changed blocks are requested from a map that keeps track of them, the blocks
updated after the last publication. -/
def AnyMap.Due (onlyChanged : Bool) (lastRun : ℚ) : AnyMap → Index 3 → Prop
  | .hashedWavelet m, j => onlyChanged = true → ∃ k b, InBlock m.config.treeHeight k j ∧ m.blocks.getBlock k = some b ∧ lastRun < b.lastUpdated
  | .hashedChunked m, j => onlyChanged = true → ∃ k b, InBlock m.config.treeHeight k j ∧ m.blocks.getBlock k = some b ∧ lastRun < b.lastUpdated
  | _, _ => True

/-! ## From leaves to points -/

theorem cellMid_injective {w : ℚ} (hw : 0 < w) {i j : Index 3} (h : cellMid w i = cellMid w j) : i = j := by
  funext k
  have := congrFun h k
  unfold cellMid at this
  have h2 := mul_right_cancel₀ hw.ne' this
  have h3 : (i k : ℚ) = j k := by linarith
  exact_mod_cast h3

theorem leafPoints_spec {w : ℚ} (hw : 0 < w) (thr : ℚ) (e : NdtreeIndex 3 × ℚ) (he : 0 ≤ e.1.height) :
    ∃ l, leafPoints w thr e = some l ∧ (∀ j, l.count (cellMid w j) = if NodeRegion e.1 j ∧ thr < e.2 then 1 else 0) ∧
      ∀ p ∈ l, ∃ j, NodeRegion e.1 j ∧ p = cellMid w j := by
  have hmid : ∀ j, indexToCenterPoint j w = cellMid w j := fun j => rfl
  unfold leafPoints
  by_cases ht : thr < e.2
  · rw [if_pos ht]
    have hlist : ∀ l : List (Index 3), l.Nodup → (∀ j, j ∈ l ↔ NodeRegion e.1 j) →
        (∀ j, (l.map fun i => indexToCenterPoint i w).count (cellMid w j) = if NodeRegion e.1 j ∧ thr < e.2 then 1 else 0) ∧
        ∀ p ∈ l.map fun i => indexToCenterPoint i w, ∃ j, NodeRegion e.1 j ∧ p = cellMid w j := by
      intro l hl hm
      constructor
      · intro j
        have hnd : (l.map fun i => indexToCenterPoint i w).Nodup := hl.map_on fun a _ b _ hab => cellMid_injective hw hab
        by_cases hj : NodeRegion e.1 j
        · rw [if_pos ⟨hj, ht⟩]
          exact List.count_eq_one_of_mem hnd (List.mem_map.2 ⟨j, (hm j).2 hj, hmid j⟩)
        · rw [if_neg fun h => hj h.1, List.count_eq_zero]
          intro hmem
          obtain ⟨i, hi, hij⟩ := List.mem_map.1 hmem
          exact hj (cellMid_injective hw hij ▸ (hm i).1 hi)
      · intro p hp
        obtain ⟨i, hi, rfl⟩ := List.mem_map.1 hp
        exact ⟨i, (hm i).1 hi, hmid i⟩
    by_cases h0 : e.1.height = 0
    · rw [if_pos h0]
      obtain ⟨n, v⟩ := e
      obtain ⟨h, p⟩ := n
      dsimp only at h0 ⊢
      subst h0
      have := hlist [p] (List.nodup_singleton _) fun j => by
        rw [List.mem_singleton]
        unfold NodeRegion
        simp only [Int.toNat_zero, pow_zero, mul_one]
        constructor
        · rintro rfl k; omega
        · intro h; funext k; have := h k; omega
      exact ⟨_, rfl, this⟩
    · rw [if_neg h0]
      obtain ⟨l, h1, h2, h3⟩ := gridIndices_spec (nodeIndexToMinCornerIndex e.1) (nodeIndexToMaxCornerIndex e.1) fun i =>
        ((C03_corners_span_region e.1 (nodeIndexToMinCornerIndex e.1)).2 (by
          intro k
          simp only [nodeIndexToMinCornerIndex, multExp2_eq]
          have := two_pow_pos' e.1.height.toNat
          rw [Int.add_mul]; omega) i).2
      rw [h1]
      exact ⟨_, rfl, hlist l h2 fun j => (h3 j).trans (C03_corners_span_region e.1 j)⟩
  · rw [if_neg ht]
    exact ⟨[], rfl, fun j => by rw [if_neg fun h => ht h.2]; rfl, fun p hp => by cases hp⟩

/-- The leaves tell the values `v` of the cells in `on`, each once. -/
structure LeavesTell (leaves : List (NdtreeIndex 3 × ℚ)) (on : Index 3 → Prop) (v : Index 3 → ℚ) : Prop where
  height : ∀ e ∈ leaves, 0 ≤ e.1.height
  inside : ∀ j, on j → ∃ n, leaves.filter (fun e => decide (NodeRegion e.1 j)) = [(n, v j)]
  outside : ∀ j, ¬ on j → leaves.filter (fun e => decide (NodeRegion e.1 j)) = []

theorem leavesPoints_count {w : ℚ} (hw : 0 < w) (thr : ℚ) (leaves : List (NdtreeIndex 3 × ℚ)) (hl : ∀ e ∈ leaves, 0 ≤ e.1.height) :
    ∃ pts, leavesPoints w thr leaves = some pts ∧
      (∀ j, pts.count (cellMid w j) = (leaves.filter fun e => decide (NodeRegion e.1 j)).countP fun e => decide (thr < e.2)) ∧
      ∀ p ∈ pts, ∃ e ∈ leaves, ∃ j, NodeRegion e.1 j ∧ p = cellMid w j := by
  induction leaves with
  | nil => exact ⟨[], rfl, fun j => rfl, fun p hp => by cases hp⟩
  | cons e leaves ih =>
    obtain ⟨pts, h1, h2, h3⟩ := ih fun e he => hl e (List.mem_cons_of_mem _ he)
    obtain ⟨l, h4, h5, h6⟩ := leafPoints_spec hw thr e (hl e List.mem_cons_self)
    unfold leavesPoints at h1 ⊢
    cases hm : leaves.mapM (leafPoints w thr) with
    | none => rw [hm] at h1; cases h1
    | some ls =>
      rw [hm] at h1
      have h1 : ls.flatten = pts := Option.some.inj h1
      refine ⟨l ++ pts, ?_, fun j => ?_, ?_⟩
      · rw [List.mapM_cons, h4, hm, ← h1]; rfl
      · rw [List.count_append, h5, h2, List.filter_cons]
        by_cases hr : NodeRegion e.1 j
        · by_cases ht : thr < e.2
          · simp [hr, ht, Nat.add_comm]
          · simp [hr, ht]
        · simp [hr]
      · intro p hp
        rcases List.mem_append.1 hp with hp | hp
        · obtain ⟨j, h7, h8⟩ := h6 p hp
          exact ⟨e, List.mem_cons_self, j, h7, h8⟩
        · obtain ⟨e', he', h7⟩ := h3 p hp
          exact ⟨e', List.mem_cons_of_mem _ he', h7⟩

theorem LeavesTell.points {leaves : List (NdtreeIndex 3 × ℚ)} {on : Index 3 → Prop} {v : Index 3 → ℚ} (h : LeavesTell leaves on v) {w : ℚ} (hw : 0 < w)
    (thr : ℚ) : ∃ pts, leavesPoints w thr leaves = some pts ∧ (∀ j, on j → thr < v j → pts.count (cellMid w j) = 1) ∧
      (∀ j, ¬ (on j ∧ thr < v j) → pts.count (cellMid w j) = 0) ∧ ∀ p ∈ pts, ∃ j, on j ∧ p = cellMid w j := by
  obtain ⟨pts, h1, h2, h3⟩ := leavesPoints_count hw thr leaves h.height
  refine ⟨pts, h1, fun j hj ht => ?_, fun j hj => ?_, fun p hp => ?_⟩
  · obtain ⟨n, hn⟩ := h.inside j hj
    rw [h2, hn]; simp [ht]
  · rw [h2]
    by_cases hon : on j
    · obtain ⟨n, hn⟩ := h.inside j hon
      have : ¬ thr < v j := fun e => hj ⟨hon, e⟩
      rw [hn]; simp [this]
    · rw [h.outside j hon]; rfl
  · obtain ⟨e, he, j, hj, rfl⟩ := h3 p hp
    refine ⟨j, ?_, rfl⟩
    by_contra hon
    have := h.outside j hon
    have hm : e ∈ leaves.filter fun e => decide (NodeRegion e.1 j) := List.mem_filter.2 ⟨he, by simpa using hj⟩
    rw [this] at hm; cases hm

/-! ## The leaves of the map types -/

theorem LeavesTell.congr {leaves : List (NdtreeIndex 3 × ℚ)} {on on' : Index 3 → Prop} {v v' : Index 3 → ℚ} (h : LeavesTell leaves on v)
    (ho : ∀ j, on' j ↔ on j) (hv : ∀ j, on j → v' j = v j) : LeavesTell leaves on' v' :=
  ⟨h.height, fun j hj => by rw [hv j ((ho j).1 hj)]; exact h.inside j ((ho j).1 hj), fun j hj => h.outside j fun e => hj ((ho j).2 e)⟩

/-- The leaves of several blocks. -/
theorem blocks_tell {H : Nat} (P : Index 3 → Prop) (v : Index 3 → ℚ) (l : List (Index 3 × List (NdtreeIndex 3 × ℚ))) (hn : (l.map Prod.fst).Nodup)
    (hl : ∀ e ∈ l, LeavesTell e.2 (fun j => InBlock H e.1 j ∧ P e.1) v) :
    LeavesTell (l.flatMap Prod.snd) (fun j => ∃ e ∈ l, InBlock H e.1 j ∧ P e.1) v := by
  induction l with
  | nil => exact ⟨(fun e he => by cases he), (by rintro j ⟨e, he, _⟩; cases he), fun j _ => rfl⟩
  | cons e l ih =>
    rw [List.map_cons, List.nodup_cons] at hn
    have ih := ih hn.2 fun e he => hl e (List.mem_cons_of_mem _ he)
    have he := hl e List.mem_cons_self
    rw [List.flatMap_cons]
    refine ⟨fun x hx => ?_, ?_, fun j hj => ?_⟩
    · rcases List.mem_append.1 hx with hx | hx
      · exact he.height x hx
      · exact ih.height x hx
    · rintro j ⟨e', he', hb, hp⟩
      rw [List.filter_append]
      rcases List.mem_cons.1 he' with rfl | he'
      · rw [ih.outside j, List.append_nil]
        · exact he.inside j ⟨hb, hp⟩
        · rintro ⟨e2, he2, hb2, _⟩
          rw [inBlock_iff] at hb hb2
          exact hn.1 (List.mem_map.2 ⟨e2, he2, by rw [← hb, ← hb2]⟩)
      · rw [he.outside j, List.nil_append]
        · exact ih.inside j ⟨e', he', hb, hp⟩
        · rintro ⟨hb2, _⟩
          rw [inBlock_iff] at hb hb2
          exact hn.1 (List.mem_map.2 ⟨e', he', by rw [← hb, ← hb2]⟩)
    · rw [List.filter_append, he.outside j fun e' => hj ⟨e, List.mem_cons_self, e'⟩,
        ih.outside j fun ⟨e', he', h'⟩ => hj ⟨e', List.mem_cons_of_mem _ he', h'⟩]
      rfl

/-- The block with both flags set. -/
def WaveletBlock.flagged (b : WaveletBlock) : WaveletBlock := { b with needsThresholding := true, needsPruning := true }

theorem WaveletBlock.Fits.flagged_ok {b : WaveletBlock} {H : Nat} {lo hi : ℚ} (h : b.Fits H lo hi) : b.flagged.Ok H lo hi :=
  ⟨h.height, h.minOk, h.maxOk, h.root, h.depth, (fun e => by cases e), (fun e => by cases e)⟩

theorem WaveletBlock.Ok.tell {b : WaveletBlock} {H : Nat} {lo hi : ℚ} (h : b.Ok H lo hi) (k : Index 3) :
    LeavesTell (b.forEachLeaf k 0) (fun j => InBlock H k j ∧ b.empty = false) b.val := by
  refine ⟨fun e he => ?_, ?_, fun j hj => ?_⟩
  · unfold WaveletBlock.forEachLeaf at he
    split at he
    · cases he
    · rw [h.height] at he
      exact (WTree.leaves_height _ H _ h.depth ⟨H, k⟩ rfl _ e he).1
  · rintro j ⟨hj, he⟩
    obtain ⟨n, _, _, _, h4⟩ := HashedWaveletOctree.block_leaves h k j ((HashedWaveletOctree.region_block H k j).2 hj) he
    exact ⟨n, h4⟩
  · by_cases hb : InBlock H k j
    · have he : b.empty = true := by
        by_contra he
        exact hj ⟨hb, by simpa using he⟩
      unfold WaveletBlock.forEachLeaf; rw [if_pos he]; rfl
    · exact HashedWaveletOctree.block_leaves_outside h k j fun e => hb ((HashedWaveletOctree.region_block H k j).1 e)

theorem WaveletBlock.Fits.tell {b : WaveletBlock} {H : Nat} {lo hi : ℚ} (h : b.Fits H lo hi) (k : Index 3) :
    LeavesTell (b.forEachLeaf k 0) (fun j => InBlock H k j ∧ b.empty = false) b.val :=
  h.flagged_ok.tell k

/-- The block of cell `j` is stored, not empty, and not skipped. -/
def HashedWaveletOctree.Shown (m : HashedWaveletOctree) (q : WaveletBlock → Bool) (j : Index 3) : Prop :=
  ∃ b, m.blocks.getBlock (indexToBlockIndex m.config.treeHeight j) = some b ∧ b.empty = false ∧ q b = true

theorem HashedWaveletOctree.Sound.tell' {m : HashedWaveletOctree} (h : m.Sound) (q : WaveletBlock → Bool)
    (L : Index 3 × WaveletBlock → List (NdtreeIndex 3 × ℚ))
    (hL : ∀ e ∈ m.blocks, LeavesTell (L e) (fun j => InBlock m.config.treeHeight e.1 j ∧ e.2.empty = false) e.2.val) :
    LeavesTell ((m.blocks.filter fun e => q e.2).flatMap L) (m.Shown q) m.getCellValue := by
  have hk := blocks_tell (H := m.config.treeHeight) (fun k => ∃ b, m.blocks.getBlock k = some b ∧ b.empty = false) m.getCellValue
    ((m.blocks.filter fun e => q e.2).map fun e => (e.1, L e)) (by
      rw [List.map_map]
      exact (List.filter_sublist.map _).nodup h.nodup) (by
      intro e he
      obtain ⟨e', he', rfl⟩ := List.mem_map.1 he
      have hmem := (List.mem_filter.1 he').1
      have hg := SpatialHash.getBlock_of_mem h.nodup hmem
      refine (hL e' hmem).congr (fun j => ?_) fun j hj => ?_
      · dsimp only
        rw [hg]
        simp
      · rw [h.getCellValue_eq, (inBlock_iff _ _).1 hj.1, hg])
  rw [List.flatMap_map] at hk
  refine hk.congr (fun j => ?_) fun _ _ => rfl
  constructor
  · rintro ⟨b, h1, h2, h3⟩
    exact ⟨_, List.mem_map.2 ⟨_, List.mem_filter.2 ⟨SpatialHash.mem_of_getBlock h1, h3⟩, rfl⟩, (inBlock_iff _ _).2 rfl, b, h1, h2⟩
  · rintro ⟨e, he, h1, b, h2, h3⟩
    obtain ⟨e', he', rfl⟩ := List.mem_map.1 he
    rw [inBlock_iff] at h1
    dsimp only at h1 h2
    obtain ⟨hmem, hq⟩ := List.mem_filter.1 he'
    have hg := SpatialHash.getBlock_of_mem h.nodup hmem
    rw [hg] at h2
    obtain rfl := Option.some.inj h2
    exact ⟨e'.2, by rw [h1]; exact hg, h3, hq⟩

theorem HashedWaveletOctree.Sound.tell {m : HashedWaveletOctree} (h : m.Sound) (q : WaveletBlock → Bool) :
    LeavesTell ((m.blocks.filter fun e => q e.2).flatMap fun e => e.2.forEachLeaf e.1 0) (m.Shown q) m.getCellValue :=
  h.tell' q _ fun e he => (h.fits _ _ (SpatialHash.getBlock_of_mem h.nodup he)).tell e.1

theorem HashedChunkedWaveletOctree.Rel.tell {c : HashedChunkedWaveletOctree} {m : HashedWaveletOctree} (h : c.Rel m) (hm : m.Sound)
    (qc : ChunkedWaveletBlock → Bool) (q : WaveletBlock → Bool) (hq : ∀ x b, ChunkedWaveletBlock.Rel x b → qc x = q b) :
    ∃ leaves, ((c.blocks.filter fun e => qc e.2).mapM fun (e : Index 3 × ChunkedWaveletBlock) => e.2.forEachLeaf e.1 0).map List.flatten = some leaves ∧
      LeavesTell leaves (m.Shown q) m.getCellValue := by
  have hfit : ∀ e ∈ m.blocks, e.2.Fits m.config.treeHeight m.config.minLogOdds m.config.maxLogOdds :=
    fun e he => hm.fits _ _ (SpatialHash.getBlock_of_mem hm.nodup he)
  refine ⟨(m.blocks.filter fun e => q e.2).flatMap fun e => (filledBlock e.2.flagged).forEachLeaf e.1 0, ?_, hm.tell' q _ fun e he => ?_⟩
  · have key : ∀ (l : SpatialHash 3 ChunkedWaveletBlock) (l' : SpatialHash 3 WaveletBlock), List.Forall₂ EntryRel l l' →
        (∀ e ∈ l', e.2.Fits m.config.treeHeight m.config.minLogOdds m.config.maxLogOdds) →
        ((l.filter fun e => qc e.2).mapM fun (e : Index 3 × ChunkedWaveletBlock) => e.2.forEachLeaf e.1 0)
          = some ((l'.filter fun e => q e.2).map fun e => (filledBlock e.2.flagged).forEachLeaf e.1 0) := by
      intro l l' hl hl'
      induction hl with
      | nil => rfl
      | @cons e e' l l' h1 _ ih =>
        have ih := ih fun e he => hl' e (List.mem_cons_of_mem _ he)
        rw [List.filter_cons, List.filter_cons, hq _ _ h1.2]
        split
        · have hb : e.2.forEachLeaf e.1 0 = some ((filledBlock e'.2.flagged).forEachLeaf e'.1 0) := by
            have hr : ChunkedWaveletBlock.Rel { e.2 with needsThresholding := true, needsPruning := true } e'.2.flagged :=
              ⟨h1.2.height, h1.2.lo, h1.2.hi, h1.2.scale, rfl, rfl, h1.2.stamp, h1.2.tree⟩
            have := HashedChunkedWaveletOctree.block_leaves hr (hl' e' List.mem_cons_self).flagged_ok hm.pos e'.1
            rw [← h1.1] at this ⊢
            exact this
          rw [List.mapM_cons, hb, ih]
          rfl
        · exact ih
    rw [key _ _ h.blocks hfit, List.flatMap_def]
    rfl
  · have hok := (hfit e he).flagged_ok
    refine ((HashedChunkedWaveletOctree.filledBlock_ok hok hm.pos).tell e.1).congr (fun j => ?_) fun j _ => ?_
    · rw [HashedChunkedWaveletOctree.filledBlock_empty hok hm.pos]; rfl
    · rw [HashedChunkedWaveletOctree.filledBlock_val hok]; rfl

theorem WaveletOctree.Inv.tell {m : WaveletOctree} (h : m.Inv) (he : m.empty = false) :
    LeavesTell m.forEachLeaf (CellInMap m.config.treeHeight) m.getCellValue := by
  refine ⟨fun e hmem => ?_, fun j hj => ?_, fun j hj => ?_⟩
  · unfold WaveletOctree.forEachLeaf at hmem
    rw [he] at hmem
    simp only [Bool.false_eq_true, if_false, List.mem_map] at hmem
    obtain ⟨e', hmem, rfl⟩ := hmem
    exact (WTree.leaves_height _ _ _ h.depth m.internalRoot rfl m.rootScale e' hmem).1
  · obtain ⟨n, _, _, _, h4⟩ := (h.leaves he j).1 hj
    exact ⟨n, h4⟩
  · exact (h.leaves he j).2 hj

theorem HashedBlocks.Wf.tell {m : HashedBlocks} (h : m.Wf) : LeavesTell m.forEachLeaf (fun j => m.hash.hasValue j = true) m.getCellValue := by
  have hreg : ∀ e ∈ m.forEachLeaf, ∀ j, NodeRegion e.1 j ↔ e.1.position = j := by
    intro e he j
    have h0 := (C23_hashed_blocks_leaves m h j).1 e he
    unfold NodeRegion
    rw [h0]
    simp only [Int.toNat_zero, pow_zero, mul_one]
    constructor
    · intro h; funext k; have := h k; omega
    · rintro rfl k; omega
  have hf : ∀ j, m.forEachLeaf.filter (fun e => decide (NodeRegion e.1 j)) = if m.hash.hasValue j then [(⟨0, j⟩, m.getCellValue j)] else [] := by
    intro j
    rw [← (C23_hashed_blocks_leaves m h j).2.1]
    apply List.filter_congr
    intro e he
    rw [decide_eq_decide]; exact hreg e he j
  refine ⟨fun e he => by rw [(C23_hashed_blocks_leaves m h 0).1 e he], fun j hj => ⟨_, by rw [hf, if_pos hj]⟩, fun j hj => by rw [hf, if_neg hj]⟩

/-! ## One publication -/

theorem LeavesTell.cloud {leaves : List (NdtreeIndex 3 × ℚ)} {on : Index 3 → Prop} {v : Index 3 → ℚ} (h : LeavesTell leaves on v) {w : ℚ} (hw : 0 < w)
    (thr : ℚ) : ∃ pts, leavesPoints w thr leaves = some pts ∧ pts.Nodup ∧ ∀ p, p ∈ pts ↔ ∃ j, on j ∧ thr < v j ∧ p = cellMid w j := by
  obtain ⟨pts, h1, h2, h3, h4⟩ := h.points hw thr
  refine ⟨pts, h1, ?_, fun p => ⟨fun hp => ?_, ?_⟩⟩
  · rw [List.nodup_iff_count_le_one]
    intro p
    by_cases hp : p ∈ pts
    · obtain ⟨j, hj, rfl⟩ := h4 p hp
      by_cases ht : thr < v j
      · rw [h2 j hj ht]
      · rw [h3 j fun e => ht e.2]; exact Nat.zero_le _
    · rw [List.count_eq_zero.2 hp]; exact Nat.zero_le _
  · obtain ⟨j, hj, rfl⟩ := h4 p hp
    refine ⟨j, hj, ?_, rfl⟩
    by_contra ht
    exact List.count_eq_zero.1 (h3 j fun e => ht e.2) hp
  · rintro ⟨j, hj, ht, rfl⟩
    exact List.count_pos_iff.1 (by rw [h2 j hj ht]; exact Nat.one_pos)

theorem publish_of_tell {m : AnyMap} {on : Index 3 → Prop} {leaves : List (NdtreeIndex 3 × ℚ)} {onlyChanged : Bool} {lastRun : ℚ} (now : ℚ)
    (he : m.empty = false) (hl : publishedLeaves onlyChanged lastRun m = some leaves) (h : LeavesTell leaves on m.cell) (hw : 0 < m.minCellWidth) (thr : ℚ)
    (hon : ∀ j, thr < m.cell j → (on j ↔ m.Covers j ∧ m.Due onlyChanged lastRun j)) :
    ∃ pts, publishPointcloud onlyChanged thr lastRun now m = some (now, some pts) ∧ pts.Nodup ∧
      ∀ p, p ∈ pts ↔ ∃ j, m.Covers j ∧ m.Due onlyChanged lastRun j ∧ thr < m.cell j ∧ p = cellMid m.minCellWidth j := by
  obtain ⟨pts, h1, h2, h3⟩ := h.cloud hw thr
  refine ⟨pts, ?_, h2, fun p => (h3 p).trans ?_⟩
  · unfold publishPointcloud
    rw [he, hl]
    simp only [Bool.false_eq_true, if_false, Option.bind_eq_bind, Option.bind_some, h1]
    rfl
  · constructor
    · rintro ⟨j, a, b, c⟩; obtain ⟨a1, a2⟩ := (hon j b).1 a; exact ⟨j, a1, a2, b, c⟩
    · rintro ⟨j, a1, a2, b, c⟩; exact ⟨j, (hon j b).2 ⟨a1, a2⟩, b, c⟩

theorem HashedWaveletOctree.Sound.shown_iff {m : HashedWaveletOctree} (h : m.Sound) {thr : ℚ} (ht : 1 / 1000 ≤ thr) (onlyChanged : Bool) (lastRun : ℚ)
    (j : Index 3) (hj : thr < m.getCellValue j) :
    m.Shown (fun b => !onlyChanged || decide (lastRun < b.lastUpdated)) j ↔
      (onlyChanged = true → ∃ k b, InBlock m.config.treeHeight k j ∧ m.blocks.getBlock k = some b ∧ lastRun < b.lastUpdated) := by
  constructor
  · rintro ⟨b, h1, _, h3⟩ ho
    refine ⟨_, b, (inBlock_iff _ _).2 rfl, h1, ?_⟩
    rw [ho] at h3
    simpa using h3
  · intro hd
    rw [h.getCellValue_eq] at hj
    cases e : m.blocks.getBlock (indexToBlockIndex m.config.treeHeight j) with
    | none => rw [e] at hj; dsimp only at hj; linarith
    | some b =>
      rw [e] at hj
      dsimp only at hj
      refine ⟨b, e, ?_, ?_⟩
      · by_contra he
        have := WaveletBlock.empty_val (h.fits _ _ e).root (by simpa using he) j
        have := le_abs_self (b.val j)
        linarith
      · cases onlyChanged with
        | false => rfl
        | true =>
          obtain ⟨k, b', h1, h2, h3⟩ := hd rfl
          rw [inBlock_iff] at h1
          rw [← h1, e] at h2
          obtain rfl := Option.some.inj h2
          simpa using h3

theorem AnyMap.Mapped.width {m : AnyMap} (hm : m.Mapped) : 0 < m.minCellWidth := by
  cases m with
  | hashedBlocks m =>
    obtain ⟨config, dv, ops, hc, rfl⟩ := hm
    have : (ops.foldl HashedBlocksOp.run (HashedBlocks.create config dv)).config = config := by
      suffices ∀ m : HashedBlocks, (ops.foldl HashedBlocksOp.run m).config = m.config from this _
      clear hc
      induction ops with
      | nil => intro m; rfl
      | cons o ops ih => intro m; rw [List.foldl_cons, ih, (HashedBlocks.run_config m o).1]
    show 0 < (ops.foldl HashedBlocksOp.run (HashedBlocks.create config dv)).config.minCellWidth
    rw [this]
    simp only [MapBaseConfig.isValid, Bool.and_eq_true, decide_eq_true_eq] at hc
    exact hc.1
  | waveletOctree m => exact hm.inv.2
  | hashedWavelet m => exact (HashedWaveletOctree.Mapped.sound hm).width
  | hashedChunked c =>
    obtain ⟨m, h1, h2, _⟩ := HashedChunkedWaveletOctree.Mapped.shadow hm
    show 0 < c.config.minCellWidth
    rw [h1.config]; exact h2.width
  | volumetricOctree m => cases hm

/-- The cloud of one publication, for the four map types that a mapping pipeline can update and any state it can bring them into: publication never fails;
no message is sent only if no cell of the map exceeds the threshold; and a message contains the centers of exactly the cells that exceed the threshold (and
are due), each once.
Missing for the full property: thresholds below `1/1000` or below the value of unobserved cells (they fail, `C72_threshold_fails`,
`C72_background_fails`), and the volumetric octree (`C72_volumetric_partial`, `C72_volumetric_fails`). -/
theorem C72_points_partial (m : AnyMap) (hm : m.Mapped) (onlyChanged : Bool) (thr lastRun now : ℚ) (ht : 1 / 1000 ≤ thr) (hd : m.background ≤ thr) :
    (publishPointcloud onlyChanged thr lastRun now m = some (lastRun, none) ∧ ∀ j, m.Covers j → m.cell j ≤ thr) ∨
    ∃ pts, publishPointcloud onlyChanged thr lastRun now m = some (now, some pts) ∧ pts.Nodup ∧
      ∀ p, p ∈ pts ↔ ∃ j, m.Covers j ∧ m.Due onlyChanged lastRun j ∧ thr < m.cell j ∧ p = cellMid m.minCellWidth j := by
  have hw := hm.width
  by_cases he : m.empty = true
  · left
    refine ⟨by unfold publishPointcloud; rw [if_pos he], fun j hj => ?_⟩
    cases m with
    | hashedBlocks m =>
      have hb : m.hash.blockMap = [] := List.isEmpty_iff.1 he
      have hwf : m.Wf := by unfold HashedBlocks.Wf DenseBlockHash.Wf; rw [hb]; exact List.nodup_nil
      have : m.getCellValue j = m.hash.defaultValue := (C23_hashed_blocks_leaves m hwf j).2.2 (by
        unfold DenseBlockHash.hasValue DenseBlockHash.getValue; rw [hb]; rfl)
      show m.getCellValue j ≤ thr
      rw [this]; exact hd
    | waveletOctree m =>
      have := (WaveletOctree.Mapped.inv hm).1.leaves_empty he
      have h2 := this.2 j hj
      have h3 := le_abs_self (m.getCellValue j)
      show m.getCellValue j ≤ thr
      linarith
    | hashedWavelet m =>
      have hb : m.blocks = [] := List.isEmpty_iff.1 he
      show m.getCellValue j ≤ thr
      rw [(HashedWaveletOctree.Mapped.sound hm).getCellValue_eq, hb]
      show (0 : ℚ) ≤ thr
      linarith
    | hashedChunked c =>
      obtain ⟨m, h1, h2, _⟩ := HashedChunkedWaveletOctree.Mapped.shadow hm
      have hb : c.blocks = [] := List.isEmpty_iff.1 he
      have hb' : m.blocks = [] := by
        have := h1.blocks
        rw [hb, List.forall₂_nil_left_iff] at this
        exact this
      show c.getCellValue j ≤ thr
      rw [h1.get, h2.getCellValue_eq, hb']
      show (0 : ℚ) ≤ thr
      linarith
    | volumetricOctree m => cases hm
  · right
    have he : m.empty = false := by simpa using he
    cases m with
    | hashedBlocks m =>
      obtain ⟨config, dv, ops, hc, rfl⟩ := hm
      have hwf := C22_hashed_blocks_reachable config dv ops
      refine publish_of_tell now he rfl hwf.tell hw thr fun j hj => ⟨fun _ => ⟨trivial, trivial⟩, fun _ => ?_⟩
      by_contra hv
      have := (C23_hashed_blocks_leaves _ hwf j).2.2 (by simpa using hv)
      have hj : thr < HashedBlocks.getCellValue _ j := hj
      rw [this] at hj
      exact absurd hd (not_le.2 hj)
    | waveletOctree m =>
      exact publish_of_tell now he rfl ((WaveletOctree.Mapped.inv hm).1.tell he) hw thr fun j hj => ⟨fun h => ⟨h, trivial⟩, fun h => h.1⟩
    | hashedWavelet m =>
      have hs := HashedWaveletOctree.Mapped.sound hm
      refine publish_of_tell now he rfl (hs.tell fun b => !onlyChanged || decide (lastRun < b.lastUpdated)) hw thr fun j hj => ?_
      exact (hs.shown_iff ht onlyChanged lastRun j hj).trans ⟨fun h => ⟨trivial, h⟩, fun h => h.2⟩
    | hashedChunked c =>
      obtain ⟨m, h1, hs, _⟩ := HashedChunkedWaveletOctree.Mapped.shadow hm
      obtain ⟨leaves, h2, h3⟩ := h1.tell hs (fun b => !onlyChanged || decide (lastRun < b.lastUpdated)) (fun b => !onlyChanged || decide (lastRun < b.lastUpdated))
        fun x b hr => by rw [hr.stamp]
      refine publish_of_tell now he h2 (h3.congr (fun _ => Iff.rfl) fun j _ => h1.get j) hw thr fun j hj => ?_
      have hj : thr < m.getCellValue j := by rw [← h1.get j]; exact hj
      refine (hs.shown_iff ht onlyChanged lastRun j hj).trans ⟨fun h => ⟨trivial, fun ho => ?_⟩, fun h ho => ?_⟩
      · obtain ⟨k, b, a1, a2, a3⟩ := h ho
        rcases HashedChunkedWaveletOctree.blocks_get h1.blocks k with ⟨_, h5⟩ | ⟨x, b', h4, h5, h6⟩
        · rw [h5] at a2; cases a2
        · rw [h5] at a2
          obtain rfl := Option.some.inj a2
          exact ⟨k, x, by rw [h1.config]; exact a1, h4, by rw [h6.stamp]; exact a3⟩
      · obtain ⟨k, x, a1, a2, a3⟩ := h.2 ho
        rcases HashedChunkedWaveletOctree.blocks_get h1.blocks k with ⟨h5, _⟩ | ⟨x', b', h4, h5, h6⟩
        · rw [h5] at a2; cases a2
        · rw [h4] at a2
          obtain rfl := Option.some.inj a2
          exact ⟨k, b', by rw [← h1.config]; exact a1, h5, by rw [← h6.stamp]; exact a3⟩
    | volumetricOctree m => cases hm

/-! ## The clouds of many publications -/

/-- A mapping operation on one of the two map types that keep track of changed blocks. -/
def AnyMap.mapping (o : MappingOp) : AnyMap → Option AnyMap
  | .hashedWavelet m => (o.run m).map .hashedWavelet
  | .hashedChunked m => (o.runChunked m).map .hashedChunked
  | _ => none

/-- What happens: mapping operations, and calls of the publishing operation's `run`. -/
inductive CloudEvent where
  | map (o : MappingOp)
  | run (force : Bool) (rosNow now : ℚ)

/-- The map, the publishing operation, and all points published so far. -/
structure CloudState where
  map : AnyMap
  publisher : PointcloudPublisher
  seen : List (Point 3)

/-- The effect of an event, with `only_publish_changed_blocks`. -/
def CloudEvent.step (thr : ℚ) (s : CloudState) : CloudEvent → Option CloudState
  | .map o => (s.map.mapping o).map fun m => { s with map := m }
  | .run force rosNow now => (s.publisher.run true thr force rosNow now s.map).map fun r => ⟨s.map, r.1, s.seen ++ r.2.getD []⟩

/-- The operation prunes. -/
def MappingOp.Prunes : MappingOp → Prop
  | .op .prune => True
  | .op (.pruneSmart _) => True
  | _ => False

/-- All updates of blocks by the operation are stamped after time `t`. -/
def MappingOp.After (t : ℚ) : MappingOp → Prop
  | .op (.write (.add _ _ now)) => t < now
  | .op (.write (.set _ _ now)) => t < now
  | .op _ => True
  | .integrate _ _ _ stamp => ∀ k, t < stamp k

/-- The internal clock does not go backwards, and it has advanced between a publication and the next update. -/
def CloudEvent.Timely : ℚ → List CloudEvent → Prop
  | _, [] => True
  | t, .map o :: es => o.Valid ∧ o.After t ∧ CloudEvent.Timely t es
  | t, .run _ _ now :: es => t ≤ now ∧ CloudEvent.Timely now es

namespace ObstacleCloud

/-- The plain map that corresponds to the map. -/
def Shadow : AnyMap → HashedWaveletOctree → Prop
  | .hashedWavelet m, m' => m' = m
  | .hashedChunked c, m' => c.Rel m' ∧ 2 ≤ m'.config.treeHeight
  | _, _ => False

theorem Shadow.cell {a : AnyMap} {m : HashedWaveletOctree} (h : Shadow a m) (j : Index 3) : a.cell j = m.getCellValue j := by
  cases a with
  | hashedWavelet m' => cases h; rfl
  | hashedChunked c => exact h.1.get j
  | hashedBlocks _ => cases h
  | waveletOctree _ => cases h
  | volumetricOctree _ => cases h

theorem Shadow.width {a : AnyMap} {m : HashedWaveletOctree} (h : Shadow a m) : a.minCellWidth = m.config.minCellWidth := by
  cases a with
  | hashedWavelet m' => cases h; rfl
  | hashedChunked c => show c.config.minCellWidth = _; rw [h.1.config]
  | hashedBlocks _ => cases h
  | waveletOctree _ => cases h
  | volumetricOctree _ => cases h

theorem Shadow.publish {a : AnyMap} {m : HashedWaveletOctree} (h : Shadow a m) (hm : m.Sound) {thr : ℚ} (ht : 1 / 1000 ≤ thr) (lastRun now : ℚ) :
    (publishPointcloud true thr lastRun now a = some (lastRun, none) ∧ m.blocks = []) ∨
    ∃ pts, publishPointcloud true thr lastRun now a = some (now, some pts) ∧
      ∀ p, p ∈ pts ↔ ∃ j b, m.blocks.getBlock (indexToBlockIndex m.config.treeHeight j) = some b ∧ lastRun < b.lastUpdated ∧ thr < b.val j ∧
        p = cellMid m.config.minCellWidth j := by
  have key : ∀ p, (∃ j, m.Shown (fun b => !true || decide (lastRun < b.lastUpdated)) j ∧ thr < m.getCellValue j ∧ p = cellMid m.config.minCellWidth j) ↔
      ∃ j b, m.blocks.getBlock (indexToBlockIndex m.config.treeHeight j) = some b ∧ lastRun < b.lastUpdated ∧ thr < b.val j ∧
        p = cellMid m.config.minCellWidth j := by
    intro p
    constructor
    · rintro ⟨j, ⟨b, h1, h2, h3⟩, h4, h5⟩
      rw [hm.getCellValue_eq, h1] at h4
      exact ⟨j, b, h1, by simpa using h3, h4, h5⟩
    · rintro ⟨j, b, h1, h2, h3, h4⟩
      have hv : thr < m.getCellValue j := by rw [hm.getCellValue_eq, h1]; exact h3
      exact ⟨j, (hm.shown_iff ht true lastRun j hv).2 fun _ => ⟨_, b, (inBlock_iff _ _).2 rfl, h1, h2⟩, hv, h4⟩
  cases a with
  | hashedWavelet m' =>
    cases h
    by_cases he : (AnyMap.hashedWavelet m).empty = true
    · left
      exact ⟨by unfold publishPointcloud; rw [if_pos he], List.isEmpty_iff.1 he⟩
    · right
      obtain ⟨pts, h1, _, h3⟩ := (hm.tell fun b => !true || decide (lastRun < b.lastUpdated)).cloud hm.width thr
      refine ⟨pts, ?_, fun p => (h3 p).trans (key p)⟩
      unfold publishPointcloud
      rw [if_neg he]
      simp only [publishedLeaves, AnyMap.minCellWidth, Option.bind_eq_bind, Option.bind_some, h1]
      rfl
  | hashedChunked c =>
    obtain ⟨hr, _⟩ := h
    by_cases he : (AnyMap.hashedChunked c).empty = true
    · left
      refine ⟨by unfold publishPointcloud; rw [if_pos he], ?_⟩
      have := hr.blocks
      have hb : c.blocks = [] := List.isEmpty_iff.1 he
      rw [hb, List.forall₂_nil_left_iff] at this
      exact this
    · right
      obtain ⟨leaves, h2, h3⟩ := hr.tell hm (fun b => !true || decide (lastRun < b.lastUpdated)) (fun b => !true || decide (lastRun < b.lastUpdated))
        fun x b hr => by rw [hr.stamp]
      obtain ⟨pts, h1, _, h3⟩ := h3.cloud hm.width thr
      refine ⟨pts, ?_, fun p => (h3 p).trans (key p)⟩
      unfold publishPointcloud
      rw [if_neg he]
      simp only [publishedLeaves, AnyMap.minCellWidth, h2, hr.config, Option.bind_eq_bind, Option.bind_some, h1]
      rfl
  | hashedBlocks _ => cases h
  | waveletOctree _ => cases h
  | volumetricOctree _ => cases h

/-- The blocks after an operation are new or updated after time `t`, or old ones that were left alone, clamped or pruned. -/
def Effect (t : ℚ) (prunes : Prop) (m m' : HashedWaveletOctree) : Prop :=
  ∀ k b', m'.blocks.getBlock k = some b' →
    t < b'.lastUpdated ∨ ∃ b, m.blocks.getBlock k = some b ∧ (b' = b ∨ b' = b.threshold ∨ (prunes ∧ b' = b.prune))

theorem effect_write {t now : ℚ} {pr : Prop} (hn : t < now) (m : HashedWaveletOctree) (i : Index 3) (f : WaveletBlock → WaveletBlock)
    (hf : ∀ b, (f b).lastUpdated = now) :
    Effect t pr m { m with blocks := ((m.getOrAllocateBlock (indexToBlockIndex m.config.treeHeight i) now).blocks.modifyBlock
        (indexToBlockIndex m.config.treeHeight i) f) } := by
  intro k b' hk
  have hk' : _ = some b' := (HashedWaveletOctree.modify_getBlock m i now f k).symm.trans hk
  split at hk'
  · injection hk' with hk'
    subst hk'
    left; rw [hf]; exact hn
  · exact Or.inr ⟨b', hk', Or.inl rfl⟩

theorem effect_erase {t : ℚ} {pr : Prop} {m : HashedWaveletOctree} (hm : m.Sound) (f : Index 3 → WaveletBlock → WaveletBlock × Bool)
    (hf : ∀ k b, (f k b).1 = b ∨ (pr ∧ (f k b).1 = b.prune)) : Effect t pr m { m with blocks := m.blocks.eraseBlockIf f } := by
  intro k b' hk
  dsimp only at hk
  rw [SpatialHash.getBlock_eraseBlockIf _ hm.nodup] at hk
  cases e : m.blocks.getBlock k with
  | none => rw [e] at hk; cases hk
  | some b =>
    rw [e] at hk
    simp only [Option.bind_some] at hk
    split at hk
    · cases hk
    · injection hk with hk
      right
      refine ⟨b, rfl, ?_⟩
      rcases hf k b with h | h
      · left; rw [← hk, h]
      · right; right; exact ⟨h.1, by rw [← hk, h.2]⟩

theorem effect_op {t : ℚ} {m : HashedWaveletOctree} (hm : m.Sound) (o : HashedWaveletOp) (ho : (MappingOp.op o).After t) : Effect t (MappingOp.op o).Prunes m (o.run m) := by
  cases o with
  | write w =>
    cases w with
    | add i u now => exact effect_write ho m i _ fun b => rfl
    | set i v now => exact effect_write ho m i _ fun b => rfl
    | threshold =>
      intro k b' hk
      have hk : (m.blocks.mapBlocks fun _ b => b.threshold).getBlock k = some b' := hk
      rw [SpatialHash.getBlock_mapBlocks] at hk
      cases e : m.blocks.getBlock k with
      | none => rw [e] at hk; cases hk
      | some b =>
        rw [e] at hk
        injection hk with hk
        exact Or.inr ⟨b, rfl, Or.inr (Or.inl hk.symm)⟩
    | clear => intro k b' hk; cases hk
  | prune => exact effect_erase hm _ fun k b => Or.inr ⟨trivial, rfl⟩
  | pruneSmart now =>
    refine effect_erase hm _ fun k b => ?_
    dsimp only
    unfold WaveletBlock.pruneIf
    split
    · exact Or.inr ⟨trivial, rfl⟩
    · exact Or.inl rfl
  | eraseBlocks p => exact effect_erase hm _ fun k b => Or.inl rfl

theorem Shadow.step {a : AnyMap} {m : HashedWaveletOctree} (h : Shadow a m) (hm : m.Sound) {t : ℚ} (o : MappingOp) (hv : o.Valid) (ho : o.After t) :
    ∃ a' m', a.mapping o = some a' ∧ Shadow a' m' ∧ m'.Sound ∧ m'.config = m.config ∧ Effect t o.Prunes m m' := by
  cases a with
  | hashedWavelet m' =>
    cases h
    cases o with
    | op o => exact ⟨.hashedWavelet (o.run m), o.run m, rfl, rfl, hm.run o, HashedWaveletOctree.run_config m o, effect_op hm o ho⟩
    | integrate scan schedule now stamp =>
      obtain ⟨m', jobs, h1, h2, h3, _, h5⟩ := hm.updateMap hv.1 schedule hv.2 now stamp
      refine ⟨.hashedWavelet m', m', by show (m.updateMap scan schedule now stamp).map _ = _; rw [h1]; rfl, rfl, h2, h3, ?_⟩
      intro k b' hk
      rw [h5] at hk
      split at hk
      · injection hk with hk
        left; rw [← hk]; exact ho k
      · exact Or.inr ⟨b', hk, Or.inl rfl⟩
  | hashedChunked c =>
    obtain ⟨hr, hH⟩ := h
    cases o with
    | op o =>
      obtain ⟨c', h1, h2⟩ := hr.step hm.shaped o
      exact ⟨.hashedChunked c', o.run m, by show (o.runChunked c).map _ = _; rw [h1]; rfl, ⟨h2, by rw [HashedWaveletOctree.run_config]; exact hH⟩, hm.run o,
        HashedWaveletOctree.run_config m o, effect_op hm o ho⟩
    | integrate scan schedule now stamp =>
      obtain ⟨c', m', jobs, h1, h2, h3, h4, _, h5, _⟩ := hr.updateMap hm hH hv.1 schedule hv.2 now stamp
      refine ⟨.hashedChunked c', m', by show (c.updateMap scan schedule now stamp).map _ = _; rw [h1]; rfl, ⟨h2, by rw [h4]; exact hH⟩, h3, h4, ?_⟩
      intro k b' hk
      rw [h5] at hk
      split at hk
      · injection hk with hk
        left; rw [← hk]; exact ho k
      · exact Or.inr ⟨b', hk, Or.inl rfl⟩
  | hashedBlocks _ => cases h
  | waveletOctree _ => cases h
  | volumetricOctree _ => cases h

/-- The error of pruning a block of height `H`. -/
def slack (H : Nat) : ℚ := 19 / 8000 * ((H - 1 : Nat) : ℚ)

theorem slack_nonneg (H : Nat) : 0 ≤ slack H := by unfold slack; positivity

/-- The cell's block will be published, or the cell has been, or it is no obstacle. -/
def Told (thr eps t w : ℚ) (seen : List (Point 3)) (b : WaveletBlock) (j : Index 3) : Prop :=
  t < b.lastUpdated ∨ cellMid w j ∈ seen ∨ b.val j ≤ thr + if b.needsPruning then 0 else eps

theorem Told.threshold {thr eps t w : ℚ} {seen : List (Point 3)} {b : WaveletBlock} {j : Index 3} {H : Nat} {lo hi : ℚ} (h : Told thr eps t w seen b j)
    (hb : b.Fits H lo hi) (hlo : lo ≤ thr) (he : 0 ≤ eps) : Told thr eps t w seen b.threshold j := by
  have e1 : b.threshold.lastUpdated = b.lastUpdated := by unfold WaveletBlock.threshold; split <;> rfl
  have e2 : b.threshold.needsPruning = b.needsPruning := by unfold WaveletBlock.threshold; split <;> rfl
  unfold Told
  rw [e1, e2]
  rcases h with h | h | h
  · exact Or.inl h
  · exact Or.inr (Or.inl h)
  · right; right
    by_cases hn : b.needsThresholding = true
    · have : b.threshold.val j = clamp lo hi (b.val j) := by
        have := WaveletBlock.threshold_val hb.flagged_ok j
        unfold WaveletBlock.threshold WaveletBlock.flagged WaveletBlock.val at this
        unfold WaveletBlock.threshold WaveletBlock.val
        rw [if_pos hn]
        exact this
      rw [this]
      have hpos : 0 ≤ if b.needsPruning then (0 : ℚ) else eps := by split <;> linarith
      unfold clamp
      split
      · linarith
      · split <;> linarith
    · have : b.threshold = b := by unfold WaveletBlock.threshold; rw [if_neg hn]
      rw [this]; exact h

theorem Told.prune {thr eps t w : ℚ} {seen : List (Point 3)} {b : WaveletBlock} {j : Index 3} {H : Nat} {lo hi : ℚ} (h : Told thr eps t w seen b j)
    (hb : b.Fits H lo hi) (hlo : lo ≤ thr) (he : slack H ≤ eps) : Told thr eps t w seen b.prune j := by
  by_cases hn : b.needsPruning = true
  · have h' := h.threshold hb hlo (le_trans (slack_nonneg H) he)
    have e3 : b.threshold.treeHeight = H := by unfold WaveletBlock.threshold; split <;> exact hb.height
    have e : b.prune = { b.threshold with root := b.threshold.root.recPrune, needsPruning := false } := by
      unfold WaveletBlock.prune; rw [if_pos hn]
    have e2 : b.threshold.needsPruning = true := by unfold WaveletBlock.threshold; split <;> exact hn
    unfold Told at h' ⊢
    rw [e]
    dsimp only
    rcases h' with h' | h' | h'
    · exact Or.inl h'
    · exact Or.inr (Or.inl h')
    · right; right
      rw [e2] at h'
      simp only [if_true, Bool.false_eq_true, if_false] at h' ⊢
      have := WTree.recPrune_error b.threshold.root b.threshold.rootScale (cellPath b.threshold.treeHeight j)
      rw [cellPath_length] at this
      have h3 := le_abs_self (WTree.getValue b.threshold.root.recPrune b.threshold.rootScale (cellPath b.threshold.treeHeight j) -
        WTree.getValue b.threshold.root b.threshold.rootScale (cellPath b.threshold.treeHeight j))
      unfold WaveletBlock.val at h' ⊢
      unfold slack at he
      rw [e3] at this h3 h'
      dsimp only at h' ⊢
      rw [e3]
      linarith
  · have : b.prune = b := by unfold WaveletBlock.prune; rw [if_neg hn]
    rw [this]; exact h

/-- The invariant. -/
structure Good (thr eps t : ℚ) (config : HashedWaveletOctreeConfig) (s : CloudState) (m : HashedWaveletOctree) : Prop where
  shadow : Shadow s.map m
  sound : m.Sound
  config_eq : m.config = config
  clock : s.publisher.lastRunInternal ≤ t
  told : ∀ j b, m.blocks.getBlock (indexToBlockIndex m.config.treeHeight j) = some b →
    Told thr eps s.publisher.lastRunInternal m.config.minCellWidth s.seen b j

theorem Good.map {thr eps t : ℚ} {config : HashedWaveletOctreeConfig} {s : CloudState} {m : HashedWaveletOctree} (h : Good thr eps t config s m)
    (he : 0 ≤ eps) (hlo : config.minLogOdds ≤ thr) (o : MappingOp) (hp : o.Prunes → slack config.treeHeight ≤ eps) (hv : o.Valid) (ho : o.After t) :
    ∃ s' m', CloudEvent.step thr s (.map o) = some s' ∧ Good thr eps t config s' m' := by
  obtain ⟨a', m', h1, h2, h3, h4, h5⟩ := h.shadow.step h.sound o hv ho
  refine ⟨{ s with map := a' }, m', by show (s.map.mapping o).map _ = _; rw [h1]; rfl, h2, h3, by rw [h4, h.config_eq], h.clock, ?_⟩
  intro j b' hb'
  rw [h4] at hb' ⊢
  rcases h5 _ b' hb' with h6 | ⟨b, h6, h7⟩
  · exact Or.inl (lt_of_le_of_lt h.clock h6)
  · have ht := h.told j b h6
    have hf := h.sound.fits _ b h6
    have hlo' : m.config.minLogOdds ≤ thr := by rw [h.config_eq]; exact hlo
    rcases h7 with rfl | rfl | ⟨h8, rfl⟩
    · exact ht
    · exact ht.threshold hf hlo' he
    · exact ht.prune hf hlo' (by rw [h.config_eq]; exact hp h8)

theorem Good.publish {thr eps t : ℚ} {config : HashedWaveletOctreeConfig} {s : CloudState} {m : HashedWaveletOctree} (h : Good thr eps t config s m)
    (he : 0 ≤ eps) (ht : 1 / 1000 ≤ thr) (rosNow now : ℚ) (hn : t ≤ now) :
    ∃ s', (s.publisher.run true thr true rosNow now s.map).map (fun r => (⟨s.map, r.1, s.seen ++ r.2.getD []⟩ : CloudState)) = some s' ∧
      s'.map = s.map ∧ Good thr eps now config s' m ∧
      ∀ j b, m.blocks.getBlock (indexToBlockIndex m.config.treeHeight j) = some b →
        cellMid m.config.minCellWidth j ∈ s'.seen ∨ b.val j ≤ thr + if b.needsPruning then 0 else eps := by
  rcases h.shadow.publish h.sound ht s.publisher.lastRunInternal now with ⟨h1, h2⟩ | ⟨pts, h1, h2⟩
  · refine ⟨⟨s.map, ⟨{ s.publisher.timer with lastRun := rosNow }, s.publisher.lastRunInternal⟩, s.seen ++ []⟩, ?_, rfl, ?_, ?_⟩
    · unfold PointcloudPublisher.run
      simp only [Bool.true_or, if_true, h1]
      rfl
    · refine ⟨h.shadow, h.sound, h.config_eq, le_trans h.clock hn, ?_⟩
      intro j b hb
      rw [h2] at hb; cases hb
    · intro j b hb
      rw [h2] at hb; cases hb
  · have key : ∀ j b, m.blocks.getBlock (indexToBlockIndex m.config.treeHeight j) = some b →
        cellMid m.config.minCellWidth j ∈ s.seen ++ pts ∨ b.val j ≤ thr + if b.needsPruning then 0 else eps := by
      intro j b hb
      have hpos : 0 ≤ if b.needsPruning then (0 : ℚ) else eps := by
        split <;> linarith
      rcases h.told j b hb with h3 | h3 | h3
      · by_cases hv : thr < b.val j
        · left
          exact List.mem_append_right _ ((h2 _).2 ⟨j, b, hb, h3, hv, rfl⟩)
        · right; linarith
      · exact Or.inl (List.mem_append_left _ h3)
      · exact Or.inr h3
    refine ⟨⟨s.map, ⟨{ s.publisher.timer with lastRun := rosNow }, now⟩, s.seen ++ pts⟩, ?_, rfl, ?_, key⟩
    · unfold PointcloudPublisher.run
      simp only [Bool.true_or, if_true, h1]
      rfl
    · exact ⟨h.shadow, h.sound, h.config_eq, le_refl _, fun j b hb => Or.inr (key j b hb)⟩

theorem Good.run {thr eps t : ℚ} {config : HashedWaveletOctreeConfig} {s : CloudState} {m : HashedWaveletOctree} (h : Good thr eps t config s m)
    (he : 0 ≤ eps) (ht : 1 / 1000 ≤ thr) (force : Bool) (rosNow now : ℚ) (hn : t ≤ now) :
    ∃ s', CloudEvent.step thr s (.run force rosNow now) = some s' ∧ Good thr eps now config s' m := by
  by_cases hd : (force || s.publisher.timer.shouldRun rosNow) = true
  · obtain ⟨s', h1, _, h2, _⟩ := h.publish he ht rosNow now hn
    refine ⟨s', ?_, h2⟩
    rw [← h1]
    show (s.publisher.run true thr force rosNow now s.map).map _ = _
    unfold PointcloudPublisher.run
    rw [if_pos hd, if_pos (by simp)]
  · refine ⟨⟨s.map, s.publisher, s.seen ++ []⟩, ?_, h.shadow, h.sound, h.config_eq, le_trans h.clock hn, ?_⟩
    · show (s.publisher.run true thr force rosNow now s.map).map _ = _
      unfold PointcloudPublisher.run
      rw [if_neg hd]
      rfl
    · intro j b hb
      have := h.told j b hb
      rw [List.append_nil]; exact this

theorem Good.steps {thr eps : ℚ} {config : HashedWaveletOctreeConfig} (he : 0 ≤ eps) (ht : 1 / 1000 ≤ thr) (hlo : config.minLogOdds ≤ thr)
    (es rest : List CloudEvent) (hp : ∀ o, CloudEvent.map o ∈ es → o.Prunes → slack config.treeHeight ≤ eps) :
    ∀ (t : ℚ) (s : CloudState) (m : HashedWaveletOctree), Good thr eps t config s m → CloudEvent.Timely t (es ++ rest) →
      ∃ t' s' m', es.foldlM (CloudEvent.step thr) s = some s' ∧ Good thr eps t' config s' m' ∧ CloudEvent.Timely t' rest := by
  induction es with
  | nil => intro t s m h hT; exact ⟨t, s, m, rfl, h, hT⟩
  | cons e es ih =>
    intro t s m h hT
    cases e with
    | map o =>
      obtain ⟨s1, m1, h1, h2⟩ := h.map he hlo o (hp o List.mem_cons_self) hT.1 hT.2.1
      obtain ⟨t', s', m', h3, h4⟩ := ih (fun o ho => hp o (List.mem_cons_of_mem _ ho)) t s1 m1 h2 hT.2.2
      exact ⟨t', s', m', by rw [List.foldlM_cons, h1]; exact h3, h4⟩
    | run force rosNow now =>
      obtain ⟨s1, h1, h2⟩ := h.run he ht force rosNow now hT.1
      obtain ⟨t', s', m', h3, h4⟩ := ih (fun o ho => hp o (List.mem_cons_of_mem _ ho)) now s1 m h2 hT.2
      exact ⟨t', s', m', by rw [List.foldlM_cons, h1]; exact h3, h4⟩

end ObstacleCloud

/-- The two map types that keep track of changed blocks, as the factory makes them. -/
def FreshBlockMap (config : HashedWaveletOctreeConfig) (a : AnyMap) : Prop :=
  (a = .hashedWavelet (.create config) ∧ config.isValid = true ∧ config.treeHeight ≤ 20) ∨
  (a = .hashedChunked (.create config) ∧ config.isValidChunked = true ∧ 2 ≤ config.treeHeight)

/-- The state at the start: a new map and a new publishing operation. -/
def CloudState.init (a : AnyMap) (onceEvery : ℚ) : CloudState := ⟨a, ⟨.create onceEvery, 0⟩, []⟩

theorem ObstacleCloud.history {config : HashedWaveletOctreeConfig} {a : AnyMap} (ha : FreshBlockMap config a) {thr eps : ℚ} (he : 0 ≤ eps)
    (ht : 1 / 1000 ≤ thr) (hlo : config.minLogOdds ≤ thr) (onceEvery : ℚ) (es : List CloudEvent) (rosNow now : ℚ)
    (hT : CloudEvent.Timely 0 (es ++ [.run true rosNow now])) (hp : ∀ o, CloudEvent.map o ∈ es → o.Prunes → ObstacleCloud.slack config.treeHeight ≤ eps) :
    ∃ s, (es ++ [CloudEvent.run true rosNow now]).foldlM (CloudEvent.step thr) (.init a onceEvery) = some s ∧
      ∀ j, thr + eps < s.map.cell j → cellMid config.minCellWidth j ∈ s.seen := by
  have h0 : ObstacleCloud.Good thr eps 0 config (.init a onceEvery) (.create config) := by
    rcases ha with ⟨rfl, hc, hH⟩ | ⟨rfl, hc, hH⟩
    · exact ⟨rfl, .create hc hH, rfl, le_refl _, fun j b hb => by cases hb⟩
    · exact ⟨⟨⟨rfl, .nil⟩, hH⟩, HashedChunkedWaveletOctree.create_sound hc, rfl, le_refl _, fun j b hb => by cases hb⟩
  obtain ⟨t', s', m', h1, h2, h3⟩ := ObstacleCloud.Good.steps he ht hlo es [.run true rosNow now] hp 0 _ _ h0 hT
  obtain ⟨s, h4, h5, h6, h7⟩ := h2.publish he ht rosNow now h3.1
  refine ⟨s, ?_, fun j hj => ?_⟩
  · rw [List.foldlM_append, h1]
    show List.foldlM (CloudEvent.step thr) s' [.run true rosNow now] = some s
    rw [List.foldlM_cons]
    have : CloudEvent.step thr s' (.run true rosNow now) = some s := h4
    rw [this]; rfl
  · rw [h5, h2.shadow.cell, h2.sound.getCellValue_eq] at hj
    cases e : m'.blocks.getBlock (indexToBlockIndex m'.config.treeHeight j) with
    | none => rw [e] at hj; dsimp only at hj; linarith
    | some b =>
      rw [e] at hj
      dsimp only at hj
      rw [← h2.config_eq]
      rcases h7 j b e with h8 | h8
      · exact h8
      · split at h8 <;> linarith

/-- With `only_publish_changed_blocks`, for both map types that keep track of changed blocks and any history without pruning that ends with a publication:
the clouds published so far contain the center of every cell that exceeds the threshold, provided the clock advances between publications and updates. -/
theorem C72_incremental (config : HashedWaveletOctreeConfig) (a : AnyMap) (ha : FreshBlockMap config a) (thr : ℚ) (ht : 1 / 1000 ≤ thr)
    (hlo : config.minLogOdds ≤ thr) (onceEvery : ℚ) (es : List CloudEvent) (rosNow now : ℚ) (hT : CloudEvent.Timely 0 (es ++ [.run true rosNow now]))
    (hp : ∀ o, CloudEvent.map o ∈ es → ¬ o.Prunes) :
    ∃ s, (es ++ [CloudEvent.run true rosNow now]).foldlM (CloudEvent.step thr) (.init a onceEvery) = some s ∧
      ∀ j, thr < s.map.cell j → cellMid config.minCellWidth j ∈ s.seen := by
  obtain ⟨s, h1, h2⟩ := ObstacleCloud.history ha (eps := 0) (le_refl _) ht hlo onceEvery es rosNow now hT fun o ho hpr => absurd hpr (hp o ho)
  exact ⟨s, h1, fun j hj => h2 j (by linarith)⟩

/-- With pruning, the clouds contain every cell that exceeds the threshold by the error of pruning, `19/8000` per level below the block's root.
Missing for the full property: cells that exceed the threshold by less (they can be missed, `C72_pruned_fails`). -/
theorem C72_incremental_partial (config : HashedWaveletOctreeConfig) (a : AnyMap) (ha : FreshBlockMap config a) (thr : ℚ) (ht : 1 / 1000 ≤ thr)
    (hlo : config.minLogOdds ≤ thr) (onceEvery : ℚ) (es : List CloudEvent) (rosNow now : ℚ) (hT : CloudEvent.Timely 0 (es ++ [.run true rosNow now])) :
    ∃ s, (es ++ [CloudEvent.run true rosNow now]).foldlM (CloudEvent.step thr) (.init a onceEvery) = some s ∧
      ∀ j, thr + 19 / 8000 * ((config.treeHeight - 1 : Nat) : ℚ) < s.map.cell j → cellMid config.minCellWidth j ∈ s.seen :=
  ObstacleCloud.history ha (ObstacleCloud.slack_nonneg config.treeHeight) ht hlo onceEvery es rosNow now hT fun _ _ _ => le_refl _

/-! ## The volumetric octree -/

/-- The same as `C72_points_partial` for the volumetric octree, which no integrator of the pipeline updates but which clients can write to; any threshold.
Missing: maps collapsed into their root node (they fail, `C72_volumetric_fails`), and the histories excluded from `C24_table_partial`. -/
theorem C72_volumetric_partial (config : VolumetricOctreeConfig) (hw : 0 < config.minCellWidth) (hpos : 0 < config.treeHeight) (hH : config.treeHeight ≤ 20)
    (ops : List VolOp) (hops : VolOp.AllOk (VolumetricOctree.create config) ops) (onlyChanged : Bool) (thr lastRun now : ℚ) :
    let m := ops.foldl VolOp.run (VolumetricOctree.create config)
    m.root.hasChildrenArray = true →
    ∃ pts, publishPointcloud onlyChanged thr lastRun now (.volumetricOctree m) = some (now, some pts) ∧ pts.Nodup ∧
      ∀ p, p ∈ pts ↔ ∃ j, CellInMap config.treeHeight j ∧ thr < m.getCellValue j ∧ p = cellMid config.minCellWidth j := by
  intro m ha
  have hcfg : m.config = config := by
    have : ∀ (ops : List VolOp) (m : VolumetricOctree), (ops.foldl VolOp.run m).config = m.config := by
      intro ops
      induction ops with
      | nil => intro m; rfl
      | cons o ops ih => intro m; rw [List.foldl_cons, ih]; cases o <;> rfl
    exact this ops _
  have hreg := (VolumetricOctree.create_regular hpos hH).runAll ops hops
  have htell : LeavesTell m.forEachLeaf (CellInMap m.config.treeHeight) m.getCellValue := by
    refine ⟨fun e hmem => ?_, fun j hj => ?_, fun j hj => ?_⟩
    · unfold VolumetricOctree.forEachLeaf at hmem
      obtain ⟨e', hmem', rfl⟩ := List.mem_map.1 hmem
      exact (VolumetricOctree.leaves_height m _ _ hreg.clean m.internalRoot rfl 0 e' hmem').1
    · obtain ⟨n, _, _, _, h4⟩ := (hreg.leaves ha j).1 hj
      exact ⟨n, h4⟩
    · exact (hreg.leaves ha j).2 hj
  have he : (AnyMap.volumetricOctree m).empty = false := by
    show VolumetricOctree.empty m = false
    unfold VolumetricOctree.empty
    rw [ha]; rfl
  obtain ⟨pts, h1, h2, h3⟩ := publish_of_tell (m := .volumetricOctree m) (onlyChanged := onlyChanged) (lastRun := lastRun) now he rfl htell
    (by show 0 < m.config.minCellWidth; rw [hcfg]; exact hw) thr fun j _ => ⟨fun h => ⟨h, trivial⟩, fun h => h.1⟩
  refine ⟨pts, h1, h2, fun p => (h3 p).trans ?_⟩
  constructor
  · rintro ⟨j, a1, _, a3, a4⟩
    exact ⟨j, hcfg ▸ a1, a3, by rw [a4]; show cellMid m.config.minCellWidth j = _; rw [hcfg]⟩
  · rintro ⟨j, a1, a3, a4⟩
    exact ⟨j, (by show CellInMap m.config.treeHeight j; rw [hcfg]; exact a1), trivial, a3, by rw [a4]; show _ = cellMid m.config.minCellWidth j; rw [hcfg]⟩

/-! ## Findings -/

/-- The published points. -/
def publishedPoints (onlyChanged : Bool) (thr lastRun : ℚ) (m : AnyMap) : List (Point 3) :=
  ((publishPointcloud onlyChanged thr lastRun 1 m).bind Prod.snd).getD []

/-- Finding: with a threshold below `1/1000` (the default is exactly `1/1000`), obstacles can be missing: all cells of a block have a value above the threshold, but
the block counts as empty and is skipped. -/
theorem C72_threshold_fails :
    let m := (List.range 8).foldl (fun m n => m.addToCellValue (fun k => ((n / 2 ^ k.val % 2 : Nat) : Int)) (1 / 2000) 1)
      (HashedWaveletOctree.create ⟨1, -2, 4, 1, 5⟩)
    1 / 10000 < m.getCellValue (fun _ => 0) ∧ publishedPoints false (1 / 10000) 0 (.hashedWavelet m) = [] := by
  decide +kernel

/-- Finding: cells that a hashed-blocks map has not stored have the default value, and are not published even if that exceeds the threshold. -/
theorem C72_background_fails :
    let m := (HashedBlocks.create ⟨1, -2, 4⟩ 1).setCellValue (fun _ => 0) 1
    1 / 2 < m.getCellValue (fun _ => -1) ∧ cellMid 1 (fun _ => -1) ∉ publishedPoints false (1 / 2) 0 (.hashedBlocks m) ∧
      cellMid 1 (fun _ => 0) ∈ publishedPoints false (1 / 2) 0 (.hashedBlocks m) := by
  decide +kernel

/-- Finding: if all cells of a volumetric octree have the same value, pruning collapses it into its root node, and the obstacles are published in the wrong
place: the obstacle at cell (-1, -1, -1) is missing, and a point is published outside the map. -/
theorem C72_volumetric_fails :
    let m := (((List.range 8).map fun n => VolOp.set (fun k => ((n / 2 ^ k.val % 2 : Nat) : Int) - 1) 1) ++ [VolOp.prune]).foldl VolOp.run
      (.create ⟨1, -2, 4, 1⟩)
    m.getCellValue (fun _ => -1) = 1 ∧ CellInMap 1 (fun _ => -1) ∧ cellMid 1 (fun _ => -1) ∉ publishedPoints false (1 / 2) 0 (.volumetricOctree m) ∧
      cellMid 1 (fun _ => 1) ∈ publishedPoints false (1 / 2) 0 (.volumetricOctree m) ∧ ¬ CellInMap 1 (fun _ => 1) := by
  decide +kernel

/-- All published points after the events. -/
def cloudOf (thr : ℚ) (a : AnyMap) (es : List CloudEvent) : Option (AnyMap × List (Point 3)) :=
  (es.foldlM (CloudEvent.step thr) (.init a 1)).map fun s => (s.map, s.seen)

/-- Finding: obstacles that disappear are never announced. A cell is occupied and published; then the whole block is removed, and the next publication
sends nothing, so a consumer keeps the obstacle. (Points of blocks that were only partly cleared are not retracted either.) -/
theorem C72_removed_fails :
    let r := cloudOf (1 / 1000) (.hashedWavelet (.create ⟨1, -2, 4, 1, 5⟩)) [.map (.op (.write (.add (fun _ => 0) 1 1))), .run true 1 1,
      .map (.op (.eraseBlocks fun _ => true)), .run true 2 2]
    (r.map fun s => decide (s.1.cell (fun _ => 0) = 0 ∧ cellMid 1 (fun _ => 0) ∈ s.2)) = some true ∧
      publishPointcloud true (1 / 1000) 1 2 (.hashedWavelet (.create ⟨1, -2, 4, 1, 5⟩)) = some (1, none) := by
  refine ⟨by decide +kernel, rfl⟩

/-- Finding: pruning can lift a cell above the threshold without marking its block as changed: the cell is never published. -/
theorem C72_pruned_fails :
    let es := (List.range 8).map (fun n => CloudEvent.map (.op (.write (.add (fun k => ((n / 2 ^ k.val % 2 : Nat) : Int))
        (if n = 0 then 4999 / 10000 else 5001 / 10000) 1)))) ++ [.run true 1 1, .map (.op .prune), .run true 3 3]
    CloudEvent.Timely 0 es ∧
    ((cloudOf (1 / 2) (.hashedWavelet (.create ⟨1, -2, 4, 2, 5⟩)) es).map fun s =>
      (decide (1 / 2 < s.1.cell (fun _ => 0)), decide (cellMid 1 (fun _ => 0) ∈ s.2))) = some (true, false) := by
  refine ⟨?_, by decide +kernel⟩
  simp only [List.range, List.range.loop, List.map, List.cons_append, List.nil_append, CloudEvent.Timely, MappingOp.Valid, MappingOp.After]
  norm_num

/-- Finding: an update that is stamped with the time of the last publication is not published: the comparison is strict. -/
theorem C72_same_time_fails :
    let es := [.map (.op (.write (.add (fun _ => 0) 1 1))), .run true 1 1, .map (.op (.write (.add ![1, 1, 1] 1 1))), .run true 3 3]
    ((cloudOf (1 / 2) (.hashedWavelet (.create ⟨1, -2, 4, 2, 5⟩)) es).map fun s =>
      (s.1.cell ![1, 1, 1], decide (cellMid 1 ![1, 1, 1] ∈ s.2))) = some (1, false) := by
  decide +kernel

/-! ## The hypotheses are met -/

/-- Two blocks are written, one of them again after the first publication. -/
def exampleCloudEvents : List CloudEvent :=
  [.map (.op (.write (.add (fun _ => 0) 1 1))), .map (.op (.write (.add ![-3, 2, 0] 2 1))), .run true 1 1, .run false (3 / 2) (3 / 2),
    .map (.op (.write (.add ![1, 1, 1] 3 2))), .map (.op (.write .threshold)), .map (.op (.eraseBlocks fun k => decide (k 0 = 7)))]

example : FreshBlockMap ⟨1 / 10, -2, 4, 2, 5⟩ (.hashedWavelet (.create ⟨1 / 10, -2, 4, 2, 5⟩)) ∧
    FreshBlockMap ⟨1 / 10, -2, 4, 2, 5⟩ (.hashedChunked (.create ⟨1 / 10, -2, 4, 2, 5⟩)) ∧ CloudEvent.Timely 0 (exampleCloudEvents ++ [.run true 5 5]) ∧
    (∀ o, CloudEvent.map o ∈ exampleCloudEvents → ¬ o.Prunes) ∧
    ((cloudOf (1 / 1000) (.hashedWavelet (.create ⟨1 / 10, -2, 4, 2, 5⟩)) (exampleCloudEvents ++ [.run true 5 5])).map Prod.snd) =
      some [cellMid (1 / 10) ![-3, 2, 0], cellMid (1 / 10) (fun _ => 0), cellMid (1 / 10) (fun _ => 0), cellMid (1 / 10) ![1, 1, 1]] := by
  refine ⟨Or.inl ⟨rfl, by decide +kernel, by decide⟩, Or.inr ⟨rfl, by decide +kernel, by decide⟩, ?_, ?_, by decide +kernel⟩
  · simp only [exampleCloudEvents, List.cons_append, List.nil_append, CloudEvent.Timely, MappingOp.Valid, MappingOp.After]
    norm_num
  · intro o ho
    simp only [exampleCloudEvents, List.mem_cons, List.not_mem_nil, or_false, CloudEvent.map.injEq, reduceCtorEq, false_or] at ho
    rcases ho with rfl | rfl | rfl | rfl | rfl <;> exact id

example : -- a map of each type meets the hypotheses of `C72_points_partial`, and its cloud is not empty
    (AnyMap.hashedBlocks ((HashedBlocks.create ⟨1, -2, 4⟩ 0).setCellValue (fun _ => 0) 1)).Mapped ∧
    publishedPoints true (1 / 1000) 0 (.hashedBlocks ((HashedBlocks.create ⟨1, -2, 4⟩ 0).setCellValue (fun _ => 0) 1)) = [cellMid 1 fun _ => 0] := by
  refine ⟨⟨⟨1, -2, 4⟩, 0, [.set (fun _ => 0) 1], by decide +kernel, rfl⟩, by decide +kernel⟩

end Wavemap
