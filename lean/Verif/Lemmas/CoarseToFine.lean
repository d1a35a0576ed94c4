import Verif.Model.CoarseToFine
import Verif.Lemmas.VolumetricOctree
import Mathlib.Tactic.Ring
/-! Helper lemmas for C65: trees of plain values in which the values along a path add up. -/
namespace Wavemap
open NTree NdtreeIndex

namespace VTree

/-- Sum of the values of the nodes on a path. -/
def total : VTree → List (Fin (2 ^ 3)) → ℚ
  | t, [] => dataOr0 t
  | t, i :: p => dataOr0 t + total (t.child i) p

theorem total_nil (q) : total .nil q = 0 := by
  induction q with
  | nil => rfl
  | cons i q ih => rw [total, child_nil, ih, add_zero]; rfl

theorem total_leaf (a : ℚ) (q) : total (.leaf a) q = a := by
  cases q with
  | nil => rfl
  | cons i q => rw [total, child_leaf, total_nil, add_zero]; rfl

theorem dataOr0_getOrAllocate (t : VTree) (i : Fin (2 ^ 3)) (q) : total (t.getOrAllocateChild i 0) q = total (t.child i) q := by
  rcases getOrAllocate_cases t i with ⟨h1, h2⟩ | ⟨_, h2⟩
  · rw [h2, isNil_true h1, total_leaf, total_nil]
  · rw [h2]

/-- Adding to a node adds to the sums of all paths through it. -/
theorem total_write (u : ℚ) (t : VTree) (ht : t ≠ .nil) (p q : List (Fin (2 ^ 3))) :
    total (write (· + u) t p) q = total t q + if p <+: q then u else 0 := by
  induction p generalizing t q with
  | nil =>
    rw [write_nil _ t ht, if_pos (List.nil_prefix)]
    cases t with
    | nil => exact absurd rfl ht
    | leaf a => rw [setData, total_leaf, total_leaf]; rfl
    | node a ch =>
      cases q with
      | nil => rfl
      | cons i q =>
        show a + u + _ = a + _ + u
        have : ((NTree.node a ch).setData (dataOr0 (.node a ch) + u)).child i = ch i := rfl
        rw [this, child_node]
        ring
  | cons i p ih =>
    rw [write_cons _ t ht]
    cases q with
    | nil =>
      rw [if_neg (by simp), add_zero]
      exact dataOr0_setChild t i _
    | cons j q =>
      rw [total, dataOr0_setChild, setChild_child t ht]
      by_cases hji : j = i
      · subst hji
        rw [if_pos rfl, ih _ (getOrAllocateChild_ne_nil t j 0), dataOr0_getOrAllocate, total]
        simp only [List.cons_prefix_cons, true_and]
        ring
      · rw [if_neg hji, total]
        have : ¬ (i :: p <+: j :: q) := by
          rw [List.cons_prefix_cons]
          exact fun h => hji h.1.symm
        rw [if_neg this]
        ring

/-- No node below height 0. -/
def DepthLe : Nat → VTree → Prop
  | 0, t => t.hasChildrenArray = false
  | h + 1, t => ∀ i, DepthLe h (t.child i)

theorem depth_leaf (h : Nat) (a : ℚ) : DepthLe h (.leaf a) := by
  induction h generalizing a with
  | zero => rfl
  | succ h _ =>
    intro i
    rw [child_leaf]
    cases h with
    | zero => rfl
    | succ h =>
      have : ∀ h, DepthLe h .nil := by
        intro h
        induction h with
        | zero => rfl
        | succ h ih => intro i; exact ih
      exact this _

theorem depth_nil (h : Nat) : DepthLe h .nil := by
  induction h with
  | zero => rfl
  | succ h ih => intro i; exact ih

theorem DepthLe.write {h : Nat} {t : VTree} (ht : t ≠ .nil) (hd : DepthLe h t) (g) (p) (hp : p.length ≤ h) : DepthLe h (write g t p) := by
  induction p generalizing t h with
  | nil =>
    rw [write_nil g t ht]
    cases h with
    | zero => cases t <;> exact hd
    | succ h =>
      intro i
      have := hd i
      cases t <;> exact this
  | cons i p ih =>
    obtain ⟨h, rfl⟩ : ∃ k, h = k + 1 := ⟨h - 1, by simp only [List.length_cons] at hp; omega⟩
    rw [write_cons g t ht]
    intro j
    rw [setChild_child t ht]
    split
    · refine ih (getOrAllocateChild_ne_nil t i 0) ?_ (by simpa using hp)
      rcases getOrAllocate_cases t i with ⟨_, h2⟩ | ⟨_, h2⟩
      · rw [h2]; exact depth_leaf _ _
      · rw [h2]; exact hd i
    · exact hd j

theorem Clean.depth {h : Nat} {t : VTree} (hz : Clean h t) : DepthLe h t := by
  induction h generalizing t with
  | zero => exact hz
  | succ h ih => exact fun i => ih (hz.2 i)

theorem read_none (q) : read .nil q = 0 := by
  cases q with
  | nil => rfl
  | cons i q => rw [read_cons]; rfl

/-- In trees as left by `prune`, a path's sum is the value of its deepest node. -/
theorem Clean.total {h : Nat} {t : VTree} (hz : Clean h t) (q : List (Fin (2 ^ 3))) (hq : q.length = h) : total t q = read t q := by
  induction h generalizing t q with
  | zero =>
    obtain rfl : q = [] := List.length_eq_zero_iff.1 hq
    rfl
  | succ h ih =>
    cases q with
    | nil => simp at hq
    | cons i q =>
      rw [VTree.total, read_cons, ih (hz.2 i) q (by simpa using hq)]
      cases t with
      | nil => rw [child_nil, read_none, add_zero]; rfl
      | leaf a => rw [child_leaf, read_none, add_zero]; rfl
      | node a ch =>
        have : dataOr0 (.node a ch : VTree) = 0 := hz.1 rfl
        rw [this, zero_add]
        split
        · next hn => rw [isNil_true hn, read_none]
        · rfl

variable {lo hi : ℚ}

/-- One level of `prune`. -/
theorem prune_node (p a : ℚ) (ch : Fin (2 ^ 3) → VTree) :
    ∃ ch' : Fin (2 ^ 3) → VTree, (∀ i, ch' i = if (ch i).isNil then (if kEpsilon < |p + a| then .leaf (clamp lo hi (p + a)) else .nil)
        else prune lo hi (p + a) (ch i)) ∧
      ((∃ first, prune lo hi p (.node a ch) = .leaf first ∧
          ∀ i, (ch' i).hasChildrenArray = false ∧ |dataOr0 (ch' i) - first| ≤ kEpsilon) ∨
        prune lo hi p (.node a ch) = .node 0 ch') := by
  rw [prune]
  simp only [add_zero]
  refine ⟨_, fun _ => rfl, ?_⟩
  generalize hch : (fun i => if (ch i).isNil then (if kEpsilon < |p + a| then .leaf (clamp lo hi (p + a)) else .nil)
    else prune lo hi (p + a) (ch i) : Fin (2 ^ 3) → VTree) = ch'
  have hc := fun i => congrFun hch i
  simp only [hc]
  by_cases h : (List.finRange (2 ^ 3)).all (fun i => !(ch' i).hasChildrenArray &&
      !decide (kEpsilon < |dataOr0 (ch' i) - clamp lo hi (p + a + dataOr0 (ch' ⟨0, by decide⟩))|)) = true
  · left
    refine ⟨_, by unfold mergeChildren; dsimp only; rw [if_pos h], fun i => ?_⟩
    have := List.all_eq_true.1 h i (List.mem_finRange i)
    simp only [Bool.and_eq_true, Bool.not_eq_true', decide_eq_false_iff_not, not_lt] at this
    exact this
  · right
    unfold mergeChildren
    dsimp only
    rw [if_neg h]

/-- After `prune`, only nodes without children hold values. -/
theorem prune_clean {h : Nat} {t : VTree} (hd : DepthLe h t) (p : ℚ) : Clean h (prune lo hi p t) := by
  induction h generalizing t p with
  | zero =>
    cases t with
    | nil => rfl
    | leaf a => rfl
    | node a ch => simp [DepthLe, hasChildrenArray] at hd
  | succ h ih =>
    cases t with
    | nil => exact clean_nil _
    | leaf a => exact clean_leaf _ _
    | node a ch =>
      obtain ⟨ch', h1, h2⟩ := prune_node (lo := lo) (hi := hi) p a ch
      rcases h2 with ⟨f, h2, _⟩ | h2
      · rw [h2]; exact clean_leaf _ _
      · rw [h2]
        refine ⟨fun _ => rfl, fun i => ?_⟩
        rw [child_node, h1]
        split
        · split
          · exact clean_leaf _ _
          · exact clean_nil _
        · exact ih (hd i) _

theorem clamp_lipschitz (h : lo ≤ hi) (v w : ℚ) : |clamp lo hi v - clamp lo hi w| ≤ |v - w| := by
  unfold clamp
  rcases abs_cases (v - w) with ⟨e, _⟩ | ⟨e, _⟩ <;> rw [e, abs_le] <;> split_ifs <;> constructor <;> linarith

theorem clamp_abs (h0 : lo ≤ 0) (h1 : 0 ≤ hi) (v : ℚ) : |clamp lo hi v| ≤ |v| := by
  have := clamp_lipschitz (le_trans h0 h1) v 0
  rwa [clamp_id h0 h1, sub_zero, sub_zero] at this

/-- Pruning clamps the sum of every path, up to `kEpsilon` per level. -/
theorem read_prune_total (h0 : lo ≤ 0) (h1 : 0 ≤ hi) (h : Nat) (t : VTree) (ht : t ≠ .nil) (hd : DepthLe h t) (p : ℚ)
    (q : List (Fin (2 ^ 3))) (hq : q.length = h) :
    |read (prune lo hi p t) q - clamp lo hi (p + total t q)| ≤ kEpsilon * (h + 1) := by
  have hk : (0 : ℚ) ≤ kEpsilon := by norm_num [kEpsilon]
  have hleaf : ∀ (a p : ℚ) (h : Nat) (q : List (Fin (2 ^ 3))),
      |read (prune lo hi p (.leaf a)) q - clamp lo hi (p + total (.leaf a) q)| ≤ kEpsilon * (h + 1) := by
    intro a p h q
    rw [prune, read_leaf, total_leaf, sub_self, abs_zero]
    positivity
  induction h generalizing t q p with
  | zero =>
    cases t with
    | nil => exact absurd rfl ht
    | leaf a => exact hleaf a p 0 q
    | node a ch => simp [DepthLe, hasChildrenArray] at hd
  | succ h ih =>
    cases t with
    | nil => exact absurd rfl ht
    | leaf a => exact hleaf a p (h + 1) q
    | node a ch =>
      obtain ⟨ch', e1, e2⟩ := prune_node (lo := lo) (hi := hi) p a ch
      cases q with
      | nil => simp at hq
      | cons i q =>
        have hq' : q.length = h := by simpa using hq
        have hc : |read (ch' i) q - clamp lo hi (p + a + total (ch i) q)| ≤ kEpsilon * (h + 1) := by
          rw [e1]
          by_cases hn : (ch i).isNil = true
          · rw [if_pos hn, isNil_true hn, total_nil, add_zero]
            split
            · rw [read_leaf, sub_self, abs_zero]; positivity
            · next hv =>
              rw [read_none, zero_sub, abs_neg]
              have := clamp_abs h0 h1 (p + a)
              have h2 : (0 : ℚ) ≤ h := by positivity
              nlinarith
          · rw [if_neg hn]
            exact ih (ch i) (by intro e; rw [e] at hn; exact hn rfl) (hd i) (p + a) q hq'
        have ht' : p + total (.node a ch) (i :: q) = p + a + total (ch i) q := by
          rw [total, child_node]
          show p + (a + _) = _
          ring
        rw [ht']
        rcases e2 with ⟨f, e2, e4⟩ | e2
        · obtain ⟨e5, e6⟩ := e4 i
          have hr : read (ch' i) q = dataOr0 (ch' i) := by
            cases hci : ch' i with
            | nil => rw [read_none]; rfl
            | leaf a => rw [read_leaf]; rfl
            | node a c => rw [hci] at e5; simp [hasChildrenArray] at e5
          rw [e2, read_leaf]
          rw [hr] at hc
          push_cast
          rw [abs_le] at hc e6 ⊢
          constructor <;> linarith [hc.1, hc.2, e6.1, e6.2]
        · have hr : read (.node 0 ch') (i :: q) = read (ch' i) q := by
            rw [read_cons, child_node]
            split
            · next hn => rw [isNil_true hn, read_none]; rfl
            · rfl
          rw [e2, hr]
          push_cast
          linarith

/-! ### Leaves -/

theorem leaves_filter_total (h : Nat) (t : VTree) (ht : t ≠ .nil) (hd : DepthLe h t) (n : NdtreeIndex 3)
    (hn : n.height = h) (p : ℚ) (j : Index 3) :
    (NodeRegion n j → ∃ n' : NdtreeIndex 3, 0 ≤ n'.height ∧ n'.height ≤ h ∧ NodeRegion n' j ∧
      (t.hasChildrenArray = true → n'.height < h) ∧
      (leaves t n p).filter (fun e => decide (NodeRegion e.1 j)) = [(n', p + total t (cellPath h j))]) ∧
    (¬ NodeRegion n j → (leaves t n p).filter (fun e => decide (NodeRegion e.1 j)) = []) := by
  have hleaf : ∀ a (p : ℚ) (h : Nat) (n : NdtreeIndex 3), n.height = h →
      (NodeRegion n j → ∃ n' : NdtreeIndex 3, 0 ≤ n'.height ∧ n'.height ≤ h ∧ NodeRegion n' j ∧
        ((NTree.leaf a : VTree).hasChildrenArray = true → n'.height < h) ∧
        (leaves (.leaf a) n p).filter (fun e => decide (NodeRegion e.1 j)) = [(n', p + total (.leaf a) (cellPath h j))]) ∧
      (¬ NodeRegion n j → (leaves (.leaf a) n p).filter (fun e => decide (NodeRegion e.1 j)) = []) := by
    intro a p h n hn
    constructor
    · intro hr
      refine ⟨n, by omega, by omega, hr, by simp [hasChildrenArray], ?_⟩
      rw [leaves, total_leaf, List.filter_cons_of_pos (by simpa using hr), List.filter_nil]
    · intro hr
      rw [leaves, List.filter_cons_of_neg (by simpa using hr), List.filter_nil]
  induction h generalizing t n p with
  | zero =>
    cases t with
    | nil => exact absurd rfl ht
    | leaf a => exact hleaf a p 0 n hn
    | node a ch => simp [DepthLe, hasChildrenArray] at hd
  | succ h ih =>
    cases t with
    | nil => exact absurd rfl ht
    | leaf a => exact hleaf a p (h + 1) n hn
    | node a ch =>
      have hpos : 0 < n.height := by omega
      have hchild : ∀ c : Nat, (n.computeChildIndex c).height = h := by
        intro c; simp only [computeChildIndex, hn]; omega
      obtain ⟨hpart, huniq⟩ := C03_children_partition n hpos j
      rw [leaves, List.filter_append]
      have ihc : ∀ c : Fin (2 ^ 3), ¬ NodeRegion (n.computeChildIndex c.val) j →
          (if (ch c).isNil then [] else leaves (ch c) (n.computeChildIndex c.val) (p + a)).filter
            (fun e => decide (NodeRegion e.1 j)) = [] := by
        intro c hc
        split
        · rfl
        · next hh =>
          exact (ih (ch c) (by intro e; rw [e] at hh; exact hh rfl) (hd c) _ (hchild c) _).2 hc
      have ihd : ∀ c : Fin (2 ^ 3), ¬ NodeRegion (n.computeChildIndex c.val) j →
          (if (ch c).isNil then [(n.computeChildIndex c.val, p + a)] else []).filter
            (fun e => decide (NodeRegion e.1 j)) = [] := by
        intro c hc
        split
        · rw [List.filter_cons_of_neg (by simpa using hc), List.filter_nil]
        · rfl
      constructor
      · intro hr
        have hanc : indexAndHeightToNodeIndex j (h + 1) = n := by
          have := (C03_region_iff_ancestor n (by omega) j).1 hr
          rwa [hn, Int.toNat_natCast] at this
        let c0 : Fin (2 ^ 3) := relFin (indexAndHeightToNodeIndex j h)
        have hc0 : n.computeChildIndex c0.val = indexAndHeightToNodeIndex j h := by
          have := (C02_child_of_parent (indexAndHeightToNodeIndex j h)).2
          rw [ancestor_parent, hanc] at this
          exact this
        have hr0 : NodeRegion (n.computeChildIndex c0.val) j := by rw [hc0]; exact C03_cover j h
        have hne : ∀ c : Fin (2 ^ 3), c ≠ c0 → ¬ NodeRegion (n.computeChildIndex c.val) j := by
          intro c hc hr
          exact hc (Fin.ext (huniq _ c.isLt _ c0.isLt hr hr0))
        rw [filter_flatMap_single _ (List.nodup_finRange _) c0 (List.mem_finRange _) _ _ (fun c hc => ihd c (hne c hc)),
          filter_flatMap_single (List.finRange (2 ^ 3)).reverse (List.nodup_reverse.2 (List.nodup_finRange _)) c0
            (List.mem_reverse.2 (List.mem_finRange _)) _ _ (fun c hc => ihc c (hne c hc))]
        have hcp : cellPath (h + 1) j = c0 :: cellPath h j := rfl
        have hT : p + total (.node a ch) (c0 :: cellPath h j) = p + a + total (ch c0) (cellPath h j) := by
          rw [total, child_node]
          show p + (a + _) = _
          ring
        by_cases hnil : (ch c0).isNil = true
        · refine ⟨n.computeChildIndex c0.val, by rw [hchild]; omega, by rw [hchild]; omega, hr0,
            fun _ => by rw [hchild]; omega, ?_⟩
          rw [if_pos hnil, if_pos hnil, List.filter_cons_of_pos (by simpa using hr0), hcp, hT, isNil_true hnil, total_nil, add_zero]
          rfl
        · obtain ⟨n', h1, h2, h3, _, h4⟩ :=
            (ih (ch c0) (by intro e; rw [e] at hnil; exact hnil rfl) (hd c0) _ (hchild c0) _).1 hr0
          refine ⟨n', h1, by omega, h3, fun _ => by omega, ?_⟩
          rw [if_neg hnil, if_neg hnil, h4, hcp, hT]
          rfl
      · intro hr
        have hno : ∀ c : Fin (2 ^ 3), ¬ NodeRegion (n.computeChildIndex c.val) j := by
          intro c hc
          exact hr (hpart.2 ⟨c.val, c.isLt, hc⟩)
        rw [filter_flatMap_nil _ _ _ (fun c => ihd c (hno c)), filter_flatMap_nil _ _ _ (fun c => ihc c (hno c))]; rfl

end VTree
end Wavemap
