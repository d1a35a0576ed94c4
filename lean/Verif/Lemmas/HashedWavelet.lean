import Verif.Lemmas.WaveletLeaves
import Verif.Props.HashedBlocks
/-! # Blocks of the hashed wavelet octree -/
namespace Wavemap
open Haar NTree NdtreeIndex

namespace WTree

/-- If all end values are within bounds, so are all node values. -/
theorem bounded_node (lo hi : ℚ) (t : WTree) (s : ℚ)
    (hb : ∀ q, t.descend q = .nil → lo ≤ getValue t s q ∧ getValue t s q ≤ hi) : lo ≤ s ∧ s ≤ hi := by
  induction t generalizing s with
  | nil => have := hb [] rfl; rwa [getValue_nil] at this
  | leaf a =>
    have hc : ∀ c, lo ≤ backwardSingleChild 3 ⟨s, a⟩ c ∧ backwardSingleChild 3 ⟨s, a⟩ c ≤ hi := by
      intro c
      have := hb [c] (by rw [descend_cons, child_leaf, nil_descend])
      rwa [getValue_cons _ (by simp), getValue_nil_path] at this
    exact mean_bounds s a hc
  | node a ch ih =>
    have hc : ∀ c, lo ≤ backwardSingleChild 3 ⟨s, a⟩ c ∧ backwardSingleChild 3 ⟨s, a⟩ c ≤ hi := by
      intro c
      apply ih c
      intro q hq
      have := hb (c :: q) (by rw [descend_cons, child_node]; exact hq)
      rwa [getValue_cons _ (by simp), child_node] at this
    exact mean_bounds s a hc
where
  mean_bounds {lo hi : ℚ} (s : ℚ) (a : Details 3)
      (hc : ∀ c, lo ≤ backwardSingleChild 3 ⟨s, a⟩ c ∧ backwardSingleChild 3 ⟨s, a⟩ c ≤ hi) : lo ≤ s ∧ s ≤ hi := by
    have hm := bwd3_mean ⟨s, a⟩
    have h1 : 8 * lo ≤ sum8 (fun c => backwardSingleChild 3 ⟨s, a⟩ c) := by
      rw [← sum8_const]; unfold sum8
      exact List.sum_le_sum fun c _ => (hc c).1
    have h2 : sum8 (fun c => backwardSingleChild 3 ⟨s, a⟩ c) ≤ 8 * hi := by
      rw [← sum8_const]; unfold sum8
      exact List.sum_le_sum fun c _ => (hc c).2
    simp only at hm
    constructor <;> linarith

theorem bounded_all (lo hi : ℚ) (t : WTree) (s : ℚ)
    (hb : ∀ q, t.descend q = .nil → lo ≤ getValue t s q ∧ getValue t s q ≤ hi) (p : List (Fin (2 ^ 3))) :
    lo ≤ getValue t s p ∧ getValue t s p ≤ hi := by
  apply bounded_node lo hi (t.descend p)
  intro q hq
  have := hb (p ++ q) (by rw [descend_append]; exact hq)
  rwa [getValue_append] at this

/-- A value after pruning is the value some ancestor had before. -/
theorem recPrune_value (t : WTree) (s : ℚ) (q : List (Fin (2 ^ 3))) :
    ∃ k, getValue (recPrune t) s q = getValue t s (q.take k) := by
  induction q generalizing t s with
  | nil => exact ⟨0, by rw [List.take_zero, getValue_nil_path, getValue_nil_path]⟩
  | cons c q ih =>
    by_cases ht : t = .nil
    · subst ht; exact ⟨0, by simp only [recPrune, getValue_nil]⟩
    · rw [getValue_cons _ (fun e => ht ((recPrune_isNil t).1 e)), recPrune_details, recPrune_child]
      by_cases hk : keepChild (recPrune (t.child c)) = true
      · rw [if_pos hk]
        obtain ⟨k, hk⟩ := ih (t.child c) (backwardSingleChild 3 ⟨s, details t⟩ c)
        exact ⟨k + 1, by rw [hk, List.take_succ_cons, getValue_cons _ ht]⟩
      · rw [if_neg hk]
        exact ⟨1, by rw [getValue_nil, List.take_succ_cons, List.take_zero, getValue_cons _ ht, getValue_nil_path]⟩

/-- The end values are within bounds. -/
def Bounded (lo hi : ℚ) (t : WTree) (s : ℚ) : Prop :=
  ∀ q, t.descend q = .nil → lo ≤ getValue t s q ∧ getValue t s q ≤ hi

theorem Bounded.recPrune {lo hi : ℚ} {t : WTree} {s : ℚ} (h : Bounded lo hi t s) : Bounded lo hi (recPrune t) s := by
  intro q _
  obtain ⟨k, hk⟩ := recPrune_value t s q
  rw [hk]
  exact bounded_all lo hi t s h _

theorem bounded_recThreshold {lo hi : ℚ} (h : lo ≤ hi) (t : WTree) (s : ℚ) :
    Bounded lo hi (recThreshold lo hi t s).1 (recThreshold lo hi t s).2 := by
  intro q hq
  rw [recThreshold_descend] at hq
  rw [recThreshold_getValue _ _ _ _ _ hq]
  exact clamp_mem h _

end WTree

namespace WaveletBlock

/-- Value of the cell `j` (in map coordinates), if the block is the one containing it. -/
def val (b : WaveletBlock) (j : Index 3) : ℚ := b.root.getValue b.rootScale (cellPath b.treeHeight j)

/-- Invariant of blocks in a map with the given configuration. -/
structure Ok (b : WaveletBlock) (H : Nat) (lo hi : ℚ) : Prop where
  height : b.treeHeight = H
  minOk : b.minLogOdds = lo
  maxOk : b.maxLogOdds = hi
  root : b.root ≠ .nil
  depth : WTree.DepthLe H b.root
  thresholded : b.needsThresholding = false → WTree.Bounded lo hi b.root b.rootScale
  pruned : b.needsPruning = false → b.needsThresholding = false ∧ b.root.recPrune = b.root

theorem val_periodic (b : WaveletBlock) (j m : Index 3) : b.val (fun k => j k + 2 ^ b.treeHeight * m k) = b.val j := by
  unfold val; rw [cellPath_shift _ _ (le_refl _)]

theorem val_mod (b : WaveletBlock) (j : Index 3) : b.val (fun k => j k % 2 ^ b.treeHeight) = b.val j := by
  unfold val; rw [cellPath_mod]

theorem represents {b : WaveletBlock} (hr : b.root ≠ .nil) (hH : b.treeHeight ≤ 20) :
    Represents b.treeHeight b.root b.rootScale b.val := by
  refine ⟨hr, fun j hj => ?_⟩
  rw [nodePath_cell hH hj]; rfl

theorem mod_range (H : Nat) (j : Index 3) (k : Fin 3) : 0 ≤ j k % 2 ^ H ∧ j k % 2 ^ H < 2 ^ H :=
  ⟨Int.emod_nonneg _ (Int.ne_of_gt (two_pow_pos' H)), Int.emod_lt_of_pos _ (two_pow_pos' H)⟩

theorem getCellValue_eq (b : WaveletBlock) (hH : b.treeHeight ≤ 20) (j : Index 3) :
    b.getCellValue ⟨0, fun k => j k % 2 ^ b.treeHeight⟩ = b.val j := by
  unfold getCellValue
  rw [nodePath_cell hH (mod_range _ j), cellPath_mod]; rfl

theorem region_cell (i j : Index 3) : NodeRegion (⟨0, i⟩ : NdtreeIndex 3) j ↔ i = j := by
  unfold NodeRegion
  constructor
  · intro h; funext k; have := h k; simp at this; omega
  · rintro rfl k; simp

theorem val_add {b : WaveletBlock} (hr : b.root ≠ .nil) (hH : b.treeHeight ≤ 20) (i : Index 3) (u now : ℚ) (j : Index 3) :
    (b.addToCellValue ⟨0, fun k => i k % 2 ^ b.treeHeight⟩ u now).val j
      = b.val j + if (fun k => i k % 2 ^ b.treeHeight) = (fun k => j k % 2 ^ b.treeHeight) then u else 0 := by
  have h := Represents.add hH (represents hr hH) ⟨0, fun k => i k % 2 ^ b.treeHeight⟩ (cellInTree (mod_range _ i)) u
  have h2 := h.2 (fun k => j k % 2 ^ b.treeHeight) (mod_range _ j)
  rw [nodePath_cell hH (mod_range _ j), cellPath_mod] at h2
  simp only [region_cell, val_mod] at h2
  exact h2

theorem set_eq_add (b : WaveletBlock) (n : NdtreeIndex 3) (v now : ℚ) :
    b.setCellValue n v now = b.addToCellValue n (v - b.root.currentValue b.rootScale (nodePath b.treeHeight n)) now := rfl

theorem current {b : WaveletBlock} (hr : b.root ≠ .nil) (hH : b.treeHeight ≤ 20) (hpos : 0 < b.treeHeight) (i : Index 3) :
    b.root.currentValue b.rootScale (nodePath b.treeHeight ⟨0, fun k => i k % 2 ^ b.treeHeight⟩)
      = boxMean b.val 1 (fun k => i k / 2 * 2) := by
  rw [Represents.currentValue hH (represents hr hH) _ (cellInTree (mod_range _ i)) (by simp only; omega)]
  have hper : b.val = fun j => b.val (fun k => j k - (2 ^ b.treeHeight * -(i k / 2 ^ b.treeHeight))) := by
    funext j
    rw [← val_periodic b j (fun k => i k / 2 ^ b.treeHeight)]
    congr 1; funext k; ring
  conv => lhs; rw [hper]
  rw [boxMean_shift]
  simp only [Int.toNat_zero, zero_add]
  congr 1
  funext k
  simp only [parentCorner, Int.toNat_zero, zero_add, pow_one]
  have e : (2 : Int) ^ b.treeHeight = 2 * 2 ^ (b.treeHeight - 1) := by rw [← Int.pow_succ']; congr 1; omega
  have h1 := Int.emod_add_mul_ediv (i k) (2 ^ b.treeHeight)
  generalize hm : i k % 2 ^ b.treeHeight = m at *
  generalize hq : i k / 2 ^ b.treeHeight = q at *
  rw [e] at h1 ⊢
  generalize (2 : Int) ^ (b.treeHeight - 1) = w at *
  have h2 : i k = m + 2 * (w * q) := by rw [← h1]; ring
  have h3 : i k / 2 = m / 2 + w * q := by rw [h2]; omega
  rw [h3]; ring

variable {H : Nat} {lo hi : ℚ}

theorem Ok.create (hpos : 0 < H) (now : ℚ) : (WaveletBlock.create H lo hi now).root ≠ .nil ∧
    WTree.DepthLe H (WaveletBlock.create H lo hi now).root := by
  obtain ⟨h, rfl⟩ : ∃ h, H = h + 1 := ⟨H - 1, by omega⟩
  exact ⟨by simp [WaveletBlock.create], WTree.DepthLe.leaf h _⟩

theorem create_val (now : ℚ) (j : Index 3) : (WaveletBlock.create H lo hi now).val j = 0 := by
  simp only [val, WaveletBlock.create]
  cases cellPath H j with
  | nil => rfl
  | cons c q =>
    rw [WTree.getValue_cons _ (by simp), child_leaf, WTree.getValue_nil]
    exact bwd_single_const 0 c

theorem Ok.add {b : WaveletBlock} (h : b.treeHeight = H ∧ b.minLogOdds = lo ∧ b.maxLogOdds = hi ∧ b.root ≠ .nil ∧ WTree.DepthLe H b.root)
    (hH : H ≤ 20) (i : Index 3) (u now : ℚ) : (b.addToCellValue ⟨0, fun k => i k % 2 ^ H⟩ u now).Ok H lo hi := by
  obtain ⟨h1, h2, h3, h4, h5⟩ := h
  refine ⟨h1, h2, h3, WTree.addPath_ne_nil _ h4 _ _, ?_, fun e => by simp [addToCellValue] at e, fun e => by simp [addToCellValue] at e⟩
  apply WTree.DepthLe.addPath h4 h5
  rw [h1, nodePath_length (cellInTree (mod_range H i))]
  simp

theorem Ok.threshold {b : WaveletBlock} (h : b.Ok H lo hi) (hlo : lo ≤ hi) : b.threshold.Ok H lo hi := by
  unfold WaveletBlock.threshold
  split
  · next hn =>
    refine ⟨h.height, h.minOk, h.maxOk, ?_, h.depth.recThreshold _ _ _, ?_, ?_⟩
    · exact fun e => h.root ((WTree.recThreshold_isNil _ _ _ _).1 e)
    · intro _
      have := WTree.bounded_recThreshold hlo b.root b.rootScale
      simp only [h.minOk, h.maxOk]; exact this
    · intro hp
      have := (h.pruned hp).1
      rw [hn] at this; cases this
  · exact h

theorem Ok.prune {b : WaveletBlock} (h : b.Ok H lo hi) (hlo : lo ≤ hi) : b.prune.Ok H lo hi := by
  unfold WaveletBlock.prune
  split
  · have ht := h.threshold hlo
    have hf : b.threshold.needsThresholding = false := by
      unfold WaveletBlock.threshold; split
      · rfl
      · next hn => simpa using hn
    refine ⟨ht.height, ht.minOk, ht.maxOk, ?_, ht.depth.recPrune, fun _ => (ht.thresholded hf).recPrune, fun _ => ⟨hf, WTree.recPrune_idem _⟩⟩
    exact fun e => ht.root ((WTree.recPrune_isNil _).1 e)
  · exact h

theorem cellPath_end {b : WaveletBlock} (h : b.Ok H lo hi) (j : Index 3) : b.root.descend (cellPath H j) = .nil :=
  h.depth.descend _ (cellPath_length H j)

theorem threshold_val {b : WaveletBlock} (h : b.Ok H lo hi) (j : Index 3) : b.threshold.val j = clamp lo hi (b.val j) := by
  unfold WaveletBlock.threshold
  split
  · unfold val
    simp only [h.minOk, h.maxOk]
    rw [WTree.recThreshold_getValue]
    rw [h.height]; exact cellPath_end h j
  · next hn =>
    have := h.thresholded (by simpa using hn) (cellPath H j) (cellPath_end h j)
    unfold val
    rw [h.height]
    exact (clamp_id this.1 this.2).symm

theorem prune_val {b : WaveletBlock} (h : b.Ok H lo hi) (j : Index 3) :
    |b.prune.val j - clamp lo hi (b.val j)| ≤ 19 / 8000 * ((H - 1 : Nat) : ℚ) := by
  rw [← threshold_val h]
  unfold WaveletBlock.prune
  split
  · have := WTree.recPrune_error b.threshold.root b.threshold.rootScale (cellPath H j)
    rw [cellPath_length] at this
    have hh : b.threshold.treeHeight = H := by
      unfold WaveletBlock.threshold; split <;> exact h.height
    simp only [val, hh]
    exact this
  · next hn =>
    have h1 := (h.pruned (by simpa using hn)).1
    have : b.threshold = b := by unfold WaveletBlock.threshold; rw [h1]; simp
    rw [this, sub_self, abs_zero]
    positivity

/-- Reading an empty block gives its mean, which is within `10⁻³` of zero. -/
theorem empty_val {b : WaveletBlock} (hr : b.root ≠ .nil) (he : b.empty = true) (j : Index 3) : |b.val j| < 1 / 1000 := by
  unfold WaveletBlock.empty WTree.nodeEmpty at he
  simp only [Bool.and_eq_true, Bool.not_eq_true'] at he
  obtain ⟨⟨hc, hz⟩, hu⟩ := he
  have hd : WTree.details b.root = fun _ => 0 := by
    funext i
    unfold WTree.anyNonzero at hz
    rw [List.any_eq_false] at hz
    have := hz i (List.mem_finRange i)
    simpa using this
  have hu' : |b.rootScale| < 1 / 1000 := by simpa [isUnobserved] using hu
  unfold val
  cases hp : cellPath b.treeHeight j with
  | nil => rw [WTree.getValue_nil_path]; exact hu'
  | cons c q =>
    rw [WTree.getValue_cons _ hr, hd, bwd_single_const]
    have : b.root.child c = .nil := by
      cases hh : b.root with
      | nil => rfl
      | leaf a => rfl
      | node a ch => rw [hh] at hc; simp [hasChildrenArray] at hc
    rw [this, WTree.getValue_nil]; exact hu'

theorem leaves_threshold_fst (enter : Int → Bool) (t : WTree) (n : NdtreeIndex 3) (s s' lo hi : ℚ) (x : ℚ) :
    (WTree.leaves enter (WTree.recThreshold lo hi t s).1 n x).map Prod.fst = (WTree.leaves enter t n s').map Prod.fst := by
  induction t generalizing n s s' x with
  | nil => rfl
  | leaf a =>
    simp only [WTree.recThreshold, WTree.leaves, List.map_map]
    rfl
  | node a ch ih =>
    have hnil : ∀ c v, (WTree.recThreshold lo hi (ch c) v).1.isNil = (ch c).isNil := by
      intro c v; cases ch c <;> rfl
    simp only [WTree.recThreshold, WTree.leaves, List.map_append, List.map_flatMap, hnil]
    refine congrArg₂ (· ++ ·) ?_ ?_
    · apply List.flatMap_congr
      intro c _
      split
      · rfl
      · simp only [List.map_cons, List.map_nil]
    · apply List.flatMap_congr
      intro c _
      split
      · apply ih
      · rfl

/-- Thresholding keeps the "empty" status of a block when the bounds leave room for observed values. -/
theorem recThreshold_empty {lo hi : ℚ} (hlo : lo ≤ -(1 / 1000)) (hhi : 1 / 1000 ≤ hi) (t : WTree) (ht : t ≠ .nil) (s : ℚ) :
    ((WTree.recThreshold lo hi t s).1.nodeEmpty && isUnobserved (WTree.recThreshold lo hi t s).2)
      = (t.nodeEmpty && isUnobserved s) := by
  have hz : ∀ a : Details 3, WTree.anyNonzero a = false ↔ a = fun _ => 0 := by
    intro a
    unfold WTree.anyNonzero
    rw [List.any_eq_false]
    constructor
    · intro h; funext i; simpa using h i (List.mem_finRange i)
    · rintro rfl; simp
  unfold WTree.nodeEmpty
  rw [WTree.recThreshold_hasChildrenArray]
  cases hc : t.hasChildrenArray with
  | true => simp
  | false =>
    simp only [Bool.not_false, Bool.true_and]
    have hchild : ∀ c, t.child c = .nil := by
      intro c
      cases t with
      | nil => rfl
      | leaf a => rfl
      | node a ch => simp [NTree.hasChildrenArray] at hc
    rw [WTree.recThreshold_details _ _ _ ht, WTree.recThreshold_scale _ _ _ ht]
    have hv : WTree.thrVals lo hi t s = fun c => clamp lo hi (backwardSingleChild 3 ⟨s, WTree.details t⟩ c) := by
      funext c; unfold WTree.thrVals; rw [hchild]; rfl
    rw [hv]
    generalize hp : forward 3 (fun c => clamp lo hi (backwardSingleChild 3 ⟨s, WTree.details t⟩ c)) = p
    have hval : ∀ c, backwardSingleChild 3 ⟨p.scale, p.details⟩ c = clamp lo hi (backwardSingleChild 3 ⟨s, WTree.details t⟩ c) := by
      intro c; rw [← hp]; exact bwd3_fwd _ c
    rw [Bool.eq_iff_iff]
    simp only [Bool.and_eq_true, Bool.not_eq_true', hz]
    have huniq : ∀ (p q : Parent 3), (∀ c, backwardSingleChild 3 p c = backwardSingleChild 3 q c) → p = q := by
      intro p q h
      have e : backward 3 p = backward 3 q := by
        funext c
        rw [bwd3_single, bwd3_single]; exact h c
      rw [← C10_forward_backward 3 h3 p, ← C10_forward_backward 3 h3 q, e]
    constructor
    · rintro ⟨hd, hu⟩
      have hu' : |p.scale| < 1 / 1000 := by simpa [isUnobserved] using hu
      rw [abs_lt] at hu'
      have key : ∀ c, backwardSingleChild 3 ⟨s, WTree.details t⟩ c = p.scale := by
        intro c
        have h1 := hval c
        rw [hd, bwd_single_const] at h1
        unfold clamp at h1
        split at h1
        · linarith
        · split at h1
          · linarith
          · exact h1.symm
      have := huniq ⟨s, WTree.details t⟩ ⟨p.scale, fun _ => 0⟩ (fun c => by rw [key, bwd_single_const])
      injection this with e1 e2
      exact ⟨e2, by rw [e1]; exact hu⟩
    · rintro ⟨hd, hu⟩
      have hu' : |s| < 1 / 1000 := by simpa [isUnobserved] using hu
      rw [abs_lt] at hu'
      have := huniq ⟨p.scale, p.details⟩ ⟨s, fun _ => 0⟩ (fun c => by
        rw [hval, hd, bwd_single_const, clamp_id (by linarith) (by linarith)])
      injection this with e1 e2
      exact ⟨e2, by rw [e1]; exact hu⟩

theorem threshold_leaves {b : WaveletBlock} (hb : b.Ok H lo hi) (hlo : lo ≤ -(1 / 1000)) (hhi : 1 / 1000 ≤ hi) (k : Index 3) :
    (b.threshold.forEachLeaf k 0).map Prod.fst = (b.forEachLeaf k 0).map Prod.fst := by
  unfold WaveletBlock.threshold
  split
  · have he := recThreshold_empty hlo hhi b.root hb.root b.rootScale
    unfold WaveletBlock.forEachLeaf WaveletBlock.empty
    dsimp only
    rw [hb.minOk, hb.maxOk, he]
    split
    · rfl
    · exact leaves_threshold_fst _ _ _ _ _ _ _ _
  · rfl

end WaveletBlock
end Wavemap
