import Verif.Lemmas.WaveletOps
import Verif.Lemmas.WaveletBlock
/-! # The leaves reported for a wavelet tree tile its region -/
namespace Wavemap
open Haar NTree NdtreeIndex

/-- Child numbers from height `h` down to the cell `j`. -/
def cellPath : Nat → Index 3 → List (Fin (2 ^ 3))
  | 0, _ => []
  | h + 1, j => relFin (indexAndHeightToNodeIndex j h) :: cellPath h j

theorem cellPath_length (h : Nat) (j : Index 3) : (cellPath h j).length = h := by
  induction h with
  | zero => rfl
  | succ h ih => simp only [cellPath, List.length_cons, ih]

theorem relFin_congr (n m : NdtreeIndex 3) (h : ∀ k, n.position k % 2 = m.position k % 2) : relFin n = relFin m := by
  apply Fin.ext
  show n.computeRelativeChildIndex = m.computeRelativeChildIndex
  unfold computeRelativeChildIndex
  simp only [h]

theorem ancestor_parent {d : Nat} (j : Index d) (k : Nat) :
    (indexAndHeightToNodeIndex j k).computeParentIndex = indexAndHeightToNodeIndex j (k + 1) := by
  ext i
  · simp [indexAndHeightToNodeIndex, computeParentIndex]
  · simp only [indexAndHeightToNodeIndex, computeParentIndex, divExp2Floor_add]

theorem ancestor_inTree {H : Nat} {j : Index 3} (hj : ∀ k, 0 ≤ j k ∧ j k < 2 ^ H) (k : Nat) (hk : k ≤ H) :
    NodeInTree H (indexAndHeightToNodeIndex j k) := by
  refine ⟨by simp [indexAndHeightToNodeIndex], by simp only [indexAndHeightToNodeIndex]; omega, fun i => ?_⟩
  simp only [indexAndHeightToNodeIndex, divExp2Floor_eq, Int.toNat_natCast]
  have e : (2 : Int) ^ H = 2 ^ (H - k) * 2 ^ k := by rw [← Int.pow_add]; congr 1; omega
  have h2 := (hj i).2
  rw [e] at h2
  exact ⟨Int.ediv_nonneg (hj i).1 (Int.le_of_lt (two_pow_pos' k)), Int.ediv_lt_of_lt_mul (two_pow_pos' k) h2⟩

theorem nodePath_ancestor {H : Nat} (hH : H ≤ 20) {j : Index 3} (hj : ∀ k, 0 ≤ j k ∧ j k < 2 ^ H) (k : Nat) (hk : k ≤ H) :
    nodePath H ⟨0, j⟩ = nodePath H (indexAndHeightToNodeIndex j k) ++ cellPath k j := by
  induction k with
  | zero =>
    have : indexAndHeightToNodeIndex j 0 = ⟨0, j⟩ := by
      unfold indexAndHeightToNodeIndex; congr 1; funext k; simp [divExp2Floor_eq]
    rw [this]; simp only [cellPath, List.append_nil]
  | succ k ih =>
    rw [ih (by omega), nodePath_parent (by decide) hH (ancestor_inTree hj k (by omega))
      (by simp only [indexAndHeightToNodeIndex]; omega), ancestor_parent, List.append_assoc]
    rfl

theorem nodePath_cell {H : Nat} (hH : H ≤ 20) {j : Index 3} (hj : ∀ k, 0 ≤ j k ∧ j k < 2 ^ H) :
    nodePath H ⟨0, j⟩ = cellPath H j := by
  rw [nodePath_ancestor hH hj H (le_refl _), nodePath_of_ge (by simp [indexAndHeightToNodeIndex])]
  rfl

/-- Coordinates that differ by a multiple of `2^H` have the same lower path. -/
theorem cellPath_shift (H h : Nat) (hh : h ≤ H) (j m : Index 3) : cellPath h (fun k => j k + 2 ^ H * m k) = cellPath h j := by
  induction h with
  | zero => rfl
  | succ h ih =>
    simp only [cellPath]
    rw [ih (by omega)]
    congr 1
    apply relFin_congr
    intro k
    simp only [indexAndHeightToNodeIndex, divExp2Floor_eq]
    have e : (2 : Int) ^ H = 2 ^ h * (2 * 2 ^ (H - h - 1)) := by
      rw [← Int.mul_assoc, ← Int.pow_succ, ← Int.pow_add]; congr 1; omega
    rw [e, Int.mul_assoc, Int.add_mul_ediv_left _ _ (Int.ne_of_gt (two_pow_pos' h)), Int.mul_assoc, Int.add_mul_emod_self_left]

theorem cellPath_mod (H : Nat) (j : Index 3) : cellPath H (fun k => j k % 2 ^ H) = cellPath H j := by
  have := cellPath_shift H H (le_refl _) (fun k => j k % 2 ^ H) (fun k => j k / 2 ^ H)
  rw [← this]
  congr 1
  funext k
  exact Int.emod_add_mul_ediv _ _

theorem filter_flatMap_single {α : Type} {n : Nat} (l : List (Fin n)) (hl : l.Nodup) (c0 : Fin n) (hc : c0 ∈ l)
    (f : Fin n → List α) (p : α → Bool) (h : ∀ c, c ≠ c0 → (f c).filter p = []) :
    (l.flatMap f).filter p = (f c0).filter p := by
  induction l with
  | nil => simp at hc
  | cons c l ih =>
    rw [List.flatMap_cons, List.filter_append]
    rw [List.nodup_cons] at hl
    by_cases hcc : c = c0
    · subst hcc
      have : (l.flatMap f).filter p = [] := by
        rw [List.filter_flatMap, List.flatMap_eq_nil_iff]
        intro x hx
        apply h
        rintro rfl
        exact hl.1 hx
      rw [this, List.append_nil]
    · rw [h c hcc, List.nil_append]
      exact ih hl.2 (by rcases List.mem_cons.1 hc with e | e; exact absurd e.symm hcc; exact e)

theorem filter_flatMap_nil {α : Type} {n : Nat} (l : List (Fin n)) (f : Fin n → List α) (p : α → Bool)
    (h : ∀ c, (f c).filter p = []) : (l.flatMap f).filter p = [] := by
  rw [List.filter_flatMap, List.flatMap_eq_nil_iff]
  intro x _; exact h x

namespace WTree

theorem leaves_eq (enter : Int → Bool) (t : WTree) (ht : t ≠ .nil) (n : NdtreeIndex 3) (s : ℚ) :
    ∃ l : List (Fin (2 ^ 3)), (∀ c, c ∈ l) ∧ l.Nodup ∧
    leaves enter t n s =
      ((List.finRange (2 ^ 3)).flatMap fun c =>
        if !(t.child c).isNil && enter (n.height - 1) then []
        else [(n.computeChildIndex c.val, backwardSingleChild 3 ⟨s, details t⟩ c)])
      ++ (l.flatMap fun c =>
        if !(t.child c).isNil && enter (n.height - 1) then
          leaves enter (t.child c) (n.computeChildIndex c.val) (backwardSingleChild 3 ⟨s, details t⟩ c)
        else []) := by
  refine ⟨(List.finRange (2 ^ 3)).reverse, by intro c; simp, List.nodup_reverse.2 (List.nodup_finRange _), ?_⟩
  cases t with
  | nil => exact absurd rfl ht
  | leaf a =>
    simp only [leaves, child_leaf, NTree.isNil, Bool.not_true, Bool.false_and, Bool.false_eq_true, if_false, details, bwd3_single]
    rw [List.map_eq_flatMap]
    have : (List.flatMap (fun _ : Fin (2 ^ 3) => ([] : List (NdtreeIndex 3 × ℚ))) (List.finRange (2 ^ 3)).reverse) = [] := by
      rw [List.flatMap_eq_nil_iff]; intros; rfl
    rw [this, List.append_nil]
  | node a ch => simp only [leaves, child_node, details, bwd3_single]; rfl

theorem leaves_filter (enter : Int → Bool) (h : Nat) (t : WTree) (ht : t ≠ .nil) (hd : DepthLe h t) (n : NdtreeIndex 3)
    (hn : n.height = h) (s : ℚ) (j : Index 3) :
    (NodeRegion n j → ∃ n' : NdtreeIndex 3, 0 ≤ n'.height ∧ n'.height < h ∧ NodeRegion n' j ∧
      (leaves enter t n s).filter (fun e => decide (NodeRegion e.1 j))
        = [(n', getValue t s ((cellPath h j).take (h - n'.height.toNat)))] ∧
      (t.descend ((cellPath h j).take (h - n'.height.toNat)) = .nil ∨ enter n'.height = false) ∧
      ∀ k : Int, n'.height < k → k < h → enter k = true) ∧
    (¬ NodeRegion n j → (leaves enter t n s).filter (fun e => decide (NodeRegion e.1 j)) = []) := by
  induction h generalizing t n s with
  | zero => exact absurd hd ht
  | succ h ih =>
    have hpos : 0 < n.height := by omega
    have hchild : ∀ c : Nat, (n.computeChildIndex c).height = h := by
      intro c; simp only [computeChildIndex, hn]; omega
    obtain ⟨l, hl1, hl2, hleaves⟩ := leaves_eq enter t ht n s
    rw [hleaves, List.filter_append]
    obtain ⟨hpart, huniq⟩ := C03_children_partition n hpos j
    have ihc : ∀ c : Fin (2 ^ 3), ¬ NodeRegion (n.computeChildIndex c.val) j →
        (if !(t.child c).isNil && enter (n.height - 1) then
          leaves enter (t.child c) (n.computeChildIndex c.val) (backwardSingleChild 3 ⟨s, details t⟩ c)
        else []).filter (fun e => decide (NodeRegion e.1 j)) = [] := by
      intro c hc
      split
      · next hh =>
        have hne : t.child c ≠ .nil := by
          intro e; rw [e] at hh; simp [NTree.isNil] at hh
        exact (ih _ hne (hd c) _ (hchild _) _).2 hc
      · rfl
    have ihb : ∀ c : Fin (2 ^ 3), ¬ NodeRegion (n.computeChildIndex c.val) j →
        (if !(t.child c).isNil && enter (n.height - 1) then []
        else [(n.computeChildIndex c.val, backwardSingleChild 3 ⟨s, details t⟩ c)]).filter
          (fun e => decide (NodeRegion e.1 j)) = [] := by
      intro c hc
      split
      · rfl
      · simp [hc]
    constructor
    · intro hreg
      have hanc : indexAndHeightToNodeIndex j (h + 1) = n := by
        have := (C03_region_iff_ancestor n (by omega) j).1 hreg
        rwa [hn, Int.toNat_natCast] at this
      let c0 : Fin (2 ^ 3) := relFin (indexAndHeightToNodeIndex j h)
      have hc0 : n.computeChildIndex c0.val = indexAndHeightToNodeIndex j h := by
        have := (C02_child_of_parent (indexAndHeightToNodeIndex j h)).2
        rw [ancestor_parent, hanc] at this
        exact this
      have hr0 : NodeRegion (n.computeChildIndex c0.val) j := by rw [hc0]; exact C03_cover j h
      have hne : ∀ c : Fin (2 ^ 3), c ≠ c0 → ¬ NodeRegion (n.computeChildIndex c.val) j := by
        intro c hc hr
        exact hc (Fin.ext (huniq _ c.isLt _ c0.isLt hr hr0))
      rw [filter_flatMap_single _ (List.nodup_finRange _) c0 (List.mem_finRange _) _ _ (fun c hc => ihb c (hne c hc)),
        filter_flatMap_single l hl2 c0 (hl1 c0) _ _ (fun c hc => ihc c (hne c hc))]
      have hcp : cellPath (h + 1) j = c0 :: cellPath h j := rfl
      by_cases hgo : (!(t.child c0).isNil && enter (n.height - 1)) = true
      · simp only [hgo, if_true, List.filter_nil, List.nil_append]
        rw [Bool.and_eq_true] at hgo
        have hcn : t.child c0 ≠ .nil := by
          intro e; rw [e] at hgo; simp [NTree.isNil] at hgo
        obtain ⟨n', h1, h2, h3, h4, h5, h6⟩ := (ih _ hcn (hd c0) _ (hchild _) (backwardSingleChild 3 ⟨s, details t⟩ c0)).1 hr0
        have hs : h + 1 - n'.height.toNat = (h - n'.height.toNat) + 1 := by omega
        refine ⟨n', h1, by omega, h3, ?_, ?_, ?_⟩
        · rw [h4, hcp, hs, List.take_succ_cons, getValue_cons _ ht]
        · rw [hcp, hs, List.take_succ_cons, descend_cons]; exact h5
        · intro k hk1 hk2
          by_cases hk : k < h
          · exact h6 k hk1 hk
          · have : k = n.height - 1 := by omega
            rw [this]; exact hgo.2
      · have hgo' : (!(t.child c0).isNil && enter (n.height - 1)) = false := by simpa using hgo
        rw [hgo']
        simp only [Bool.false_eq_true, if_false, List.filter_nil, List.append_nil, List.filter_cons, hr0, decide_true, if_true]
        have hs : h + 1 - (n.computeChildIndex c0.val).height.toNat = 1 := by rw [hchild]; simp
        refine ⟨n.computeChildIndex c0.val, by rw [hchild]; omega, by rw [hchild]; omega, hr0, ?_, ?_, ?_⟩
        · rw [hs, hcp, List.take_succ_cons, List.take_zero, getValue_cons _ ht, getValue_nil_path]
        · rw [hs, hcp, List.take_succ_cons, List.take_zero, descend_cons, descend_nil', hchild]
          rw [Bool.and_eq_false_iff] at hgo'
          rcases hgo' with e | e
          · left; rw [Bool.not_eq_false'] at e; exact isNil_iff.1 e
          · right; rw [← e]; congr 1; omega
        · intro k hk1 hk2; rw [hchild] at hk1; omega
    · intro hreg
      have hall : ∀ c : Fin (2 ^ 3), ¬ NodeRegion (n.computeChildIndex c.val) j :=
        fun c hr => hreg (hpart.2 ⟨c.val, c.isLt, hr⟩)
      rw [filter_flatMap_nil _ _ _ (fun c => ihb c (hall c)), filter_flatMap_nil _ _ _ (fun c => ihc c (hall c))]
      rfl

/-- Below a point where the tree ends, values do not change any more. -/
theorem getValue_take (t : WTree) (s : ℚ) (q : List (Fin (2 ^ 3))) (k : Nat) (h : t.descend (q.take k) = .nil) :
    getValue t s (q.take k) = getValue t s q := by
  conv => rhs; rw [← List.take_append_drop k q, getValue_append, h, getValue_nil]

end WTree
end Wavemap
