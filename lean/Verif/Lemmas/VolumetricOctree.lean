import Verif.Model.VolumetricOctree
import Verif.Lemmas.WaveletLeaves
import Mathlib.Tactic.Linarith
/-! # Lemmas about trees of plain values -/
namespace Wavemap
open NTree NdtreeIndex

namespace VTree

/-- Value of the deepest node on a path. -/
def read (t : VTree) (p : List (Fin (2 ^ 3))) : ℚ := dataOr0 (t.descendOrAncestor p).1

theorem read_nil (t : VTree) : read t [] = dataOr0 t := rfl

theorem read_cons (t : VTree) (i p) : read t (i :: p) = if (t.child i).isNil then dataOr0 t else read (t.child i) p := by
  unfold read
  simp only [descendOrAncestor]
  cases h : t.child i <;> simp [isNil]

theorem read_leaf (a : ℚ) (p) : read (.leaf a) p = a := by
  cases p with
  | nil => rfl
  | cons i p => rw [read_cons]; simp [isNil, dataOr0, data?]

/-- A write through `getOrAllocateNode`. -/
def write (g : ℚ → ℚ) (t : VTree) (p : List (Fin (2 ^ 3))) : VTree :=
  (t.allocPath 0 p).modifyAt (fun s => s.setData (g (dataOr0 s))) p

theorem modifyAt_setChild (f : VTree → VTree) (t : VTree) (ht : t ≠ .nil) (i : Fin (2 ^ 3)) (c p) :
    (t.setChild i c).modifyAt f (i :: p) = t.setChild i (c.modifyAt f p) := by
  cases t with
  | nil => exact absurd rfl ht
  | leaf a =>
    simp only [setChild, modifyAt, if_true]
    congr 1; funext j; by_cases h : j = i <;> simp [h]
  | node a ch =>
    simp only [setChild, modifyAt, if_true]
    congr 1; funext j; by_cases h : j = i <;> simp [h]

theorem write_nil (g) (t : VTree) (ht : t ≠ .nil) : write g t [] = t.setData (g (dataOr0 t)) := by
  unfold write
  cases t with
  | nil => exact absurd rfl ht
  | leaf a => rfl
  | node a ch => rfl

theorem write_cons (g) (t : VTree) (ht : t ≠ .nil) (i p) :
    write g t (i :: p) = t.setChild i (write g (t.getOrAllocateChild i 0) p) := by
  unfold write
  rw [allocPath, modifyAt_setChild _ _ ht]

theorem write_ne_nil (g) (t : VTree) (ht : t ≠ .nil) (p) : write g t p ≠ .nil := by
  cases p with
  | nil => rw [write_nil g t ht]; cases t <;> simp_all [setData]
  | cons i p => rw [write_cons g t ht]; exact setChild_ne_nil t ht _ _

theorem isNil_false {t : VTree} (ht : t ≠ .nil) : t.isNil = false := by cases t <;> simp_all [isNil]

theorem isNil_true {t : VTree} (h : t.isNil = true) : t = .nil := by cases t <;> simp_all [isNil]

theorem dataOr0_setChild (t : VTree) (i c) : dataOr0 (t.setChild i c) = dataOr0 t := by
  unfold dataOr0; rw [setChild_data]

/-- The deepest node on the path is its end, or holds zero. -/
def Fresh (t : VTree) : List (Fin (2 ^ 3)) → Prop
  | [] => True
  | i :: p => if (t.child i).isNil then dataOr0 t = 0 else Fresh (t.child i) p

theorem fresh_leaf0 (p) : Fresh (.leaf 0) p := by
  cases p with
  | nil => trivial
  | cons i p => simp [Fresh, isNil, dataOr0, data?]

theorem getOrAllocate_cases (t : VTree) (i : Fin (2 ^ 3)) :
    ((t.child i).isNil = true ∧ t.getOrAllocateChild i 0 = .leaf 0) ∨
      ((t.child i).isNil = false ∧ t.getOrAllocateChild i 0 = t.child i) := by
  unfold getOrAllocateChild
  cases h : t.child i <;> simp [isNil]

theorem read_write (g) (t : VTree) (ht : t ≠ .nil) (p q : List (Fin (2 ^ 3))) (hl : q.length = p.length) (hf : Fresh t p) :
    read (write g t p) q = if q = p then g (read t p) else read t q := by
  induction p generalizing t q with
  | nil =>
    have : q = [] := List.length_eq_zero_iff.1 hl
    subst this
    rw [write_nil g t ht, if_pos rfl, read_nil, read_nil]
    cases t <;> simp_all [setData, dataOr0, data?]
  | cons i p ih =>
    cases q with
    | nil => simp at hl
    | cons j q =>
      have hl' : q.length = p.length := by simpa using hl
      rw [write_cons g t ht, read_cons, setChild_child t ht, dataOr0_setChild]
      by_cases hji : j = i
      · subst hji
        rw [if_pos rfl, isNil_false (write_ne_nil g _ (getOrAllocateChild_ne_nil t j 0) p)]
        simp only [Bool.false_eq_true, if_false, List.cons.injEq, true_and]
        rcases getOrAllocate_cases t j with ⟨h1, h2⟩ | ⟨h1, h2⟩
        · rw [h2, ih _ (by simp) q hl' (fresh_leaf0 p), read_leaf, read_leaf, read_cons, read_cons, h1]
          have : dataOr0 t = 0 := by simpa [Fresh, h1] using hf
          simp [this]
        · rw [h2, ih _ (by rw [← h2]; exact getOrAllocateChild_ne_nil t j 0) q hl'
            (by simpa [Fresh, h1] using hf), read_cons, read_cons, h1]
          simp
      · rw [if_neg hji, read_cons t j q]
        simp [hji]

/-- Trees as left by cell writes and by `prune`: nodes with a children array hold zero, cells have no children
array. -/
def Clean : Nat → VTree → Prop
  | 0, t => t.hasChildrenArray = false
  | h + 1, t => (t.hasChildrenArray = true → dataOr0 t = 0) ∧ ∀ i, Clean h (t.child i)

theorem clean_nil (h : Nat) : Clean h .nil := by
  induction h with
  | zero => rfl
  | succ h ih => exact ⟨by simp [hasChildrenArray], fun i => ih⟩

theorem clean_leaf (h : Nat) (a : ℚ) : Clean h (.leaf a) := by
  cases h with
  | zero => rfl
  | succ h => exact ⟨by simp [hasChildrenArray], fun i => clean_nil h⟩

/-- Only cells hold values. -/
def ZeroAbove : Nat → VTree → Prop
  | 0, t => t.hasChildrenArray = false
  | h + 1, t => dataOr0 t = 0 ∧ ∀ i, ZeroAbove h (t.child i)

theorem zeroAbove_nil (h : Nat) : ZeroAbove h .nil := by
  induction h with
  | zero => rfl
  | succ h ih => exact ⟨rfl, fun i => ih⟩

theorem zeroAbove_leaf0 (h : Nat) : ZeroAbove h (.leaf 0) := by
  cases h with
  | zero => rfl
  | succ h => exact ⟨rfl, fun i => zeroAbove_nil h⟩

theorem ZeroAbove.clean {h : Nat} {t : VTree} (hz : ZeroAbove h t) : Clean h t := by
  induction h generalizing t with
  | zero => exact hz
  | succ h ih => exact ⟨fun _ => hz.1, fun i => ih (hz.2 i)⟩

theorem ZeroAbove.fresh {h : Nat} {t : VTree} (hz : ZeroAbove h t) (p) (hp : p.length = h) : Fresh t p := by
  induction h generalizing t p with
  | zero => rw [List.length_eq_zero_iff.1 hp]; trivial
  | succ h ih =>
    cases p with
    | nil => trivial
    | cons i p =>
      simp only [Fresh]
      split
      · exact hz.1
      · exact ih (hz.2 i) p (by simpa using hp)

theorem ZeroAbove.write {h : Nat} {t : VTree} (ht : t ≠ .nil) (hz : ZeroAbove h t) (g) (p) (hp : p.length = h) :
    ZeroAbove h (write g t p) := by
  induction h generalizing t p with
  | zero =>
    rw [List.length_eq_zero_iff.1 hp, write_nil g t ht]
    cases t <;> simp_all [ZeroAbove, setData, hasChildrenArray]
  | succ h ih =>
    cases p with
    | nil => simp at hp
    | cons i p =>
      rw [write_cons g t ht]
      refine ⟨by rw [dataOr0_setChild]; exact hz.1, fun j => ?_⟩
      rw [setChild_child t ht]
      split
      · apply ih (getOrAllocateChild_ne_nil t i 0) _ p (by simpa using hp)
        rcases getOrAllocate_cases t i with ⟨_, h2⟩ | ⟨_, h2⟩ <;> rw [h2]
        · exact zeroAbove_leaf0 h
        · exact hz.2 i
      · exact hz.2 j

theorem Clean.write {h : Nat} {t : VTree} (ht : t ≠ .nil) (hz : Clean h t) (g) (p) (hp : p.length = h) (hf : Fresh t p) :
    Clean h (VTree.write g t p) := by
  induction h generalizing t p with
  | zero =>
    rw [List.length_eq_zero_iff.1 hp, write_nil g t ht]
    cases t <;> simp_all [Clean, setData, hasChildrenArray]
  | succ h ih =>
    cases p with
    | nil => simp at hp
    | cons i p =>
      rw [write_cons g t ht]
      refine ⟨fun _ => ?_, fun j => ?_⟩
      · rw [dataOr0_setChild]
        by_cases hn : (t.child i).isNil = true
        · simpa [Fresh, hn] using hf
        · apply hz.1
          cases t <;> simp_all [hasChildrenArray, isNil, NTree.child]
      · rw [setChild_child t ht]
        split
        · rcases getOrAllocate_cases t i with ⟨h1, h2⟩ | ⟨h1, h2⟩
          · apply ih (getOrAllocateChild_ne_nil t i 0) _ p (by simpa using hp)
            · rw [h2]; exact fresh_leaf0 p
            · rw [h2]; exact clean_leaf h 0
          · apply ih (getOrAllocateChild_ne_nil t i 0) _ p (by simpa using hp)
            · rw [h2]; simpa [Fresh, h1] using hf
            · rw [h2]; exact hz.2 i
        · exact hz.2 j

/-! ### Pruning -/

variable {lo hi : ℚ}

theorem mergeChildren_ne_nil (v : ℚ) (ch : Fin (2 ^ 3) → VTree) : mergeChildren lo hi v ch ≠ .nil := by
  unfold mergeChildren
  dsimp only
  split <;> simp

theorem prune_ne_nil (p : ℚ) (t : VTree) (ht : t ≠ .nil) : prune lo hi p t ≠ .nil := by
  cases t with
  | nil => exact absurd rfl ht
  | leaf a => simp [prune]
  | node a ch => rw [prune]; exact mergeChildren_ne_nil _ _

/-- One level of `prune` on a node with value 0. -/
theorem prune_node0 (ch : Fin (2 ^ 3) → VTree) :
    ∃ ch' : Fin (2 ^ 3) → VTree, (∀ i, ch' i = prune lo hi 0 (ch i)) ∧
      ((∃ first, prune lo hi 0 (.node 0 ch) = .leaf first ∧ (first = clamp lo hi (dataOr0 (ch' ⟨0, by decide⟩))) ∧
          ∀ i, (ch' i).hasChildrenArray = false ∧ |dataOr0 (ch' i) - first| ≤ kEpsilon) ∨
        prune lo hi 0 (.node 0 ch) = .node 0 ch') := by
  have hch : (fun i => if (ch i).isNil then (if kEpsilon < |(0 : ℚ) + 0| then .leaf (clamp lo hi (0 + 0 + 0)) else .nil)
      else prune lo hi (0 + 0) (ch i)) = fun i => prune lo hi 0 (ch i) := by
    funext i
    have h0 : ¬ kEpsilon < |(0 : ℚ) + 0| := by norm_num [kEpsilon]
    rw [if_neg h0, add_zero]
    split
    · next h => rw [isNil_true h, prune]
    · rfl
  refine ⟨fun i => prune lo hi 0 (ch i), fun _ => rfl, ?_⟩
  rw [prune, hch]
  unfold mergeChildren
  dsimp only
  split
  · next h =>
    left
    refine ⟨_, rfl, by rw [add_zero, zero_add], fun i => ?_⟩
    have := List.all_eq_true.1 h i (List.mem_finRange i)
    simp only [Bool.and_eq_true, Bool.not_eq_true', decide_eq_false_iff_not, not_lt] at this
    exact this
  · right; rfl

theorem Clean.prune {h : Nat} {t : VTree} (hz : Clean h t) : Clean h (VTree.prune lo hi 0 t) := by
  induction h generalizing t with
  | zero =>
    cases t with
    | nil => rfl
    | leaf a => rfl
    | node a ch => simp [Clean, hasChildrenArray] at hz
  | succ h ih =>
    cases t with
    | nil => exact clean_nil _
    | leaf a => exact clean_leaf _ _
    | node a ch =>
      have ha : a = 0 := hz.1 rfl
      subst ha
      obtain ⟨ch', h1, h2⟩ := prune_node0 (lo := lo) (hi := hi) ch
      rcases h2 with ⟨f, h2, _⟩ | h2
      · rw [h2]; exact clean_leaf _ _
      · rw [h2]
        refine ⟨fun _ => rfl, fun i => ?_⟩
        rw [child_node, h1]
        exact ih (hz.2 i)

theorem leaf_of {t : VTree} (ht : t ≠ .nil) (ha : t.hasChildrenArray = false) : t = .leaf (dataOr0 t) := by
  cases t <;> simp_all [hasChildrenArray, dataOr0, data?]

/-- Pruning clamps every cell and shifts it by at most `kEpsilon` per level. -/
theorem read_prune (h0 : lo ≤ 0) (h1 : 0 ≤ hi) (h : Nat) (t : VTree) (ht : t ≠ .nil) (hz : Clean h t)
    (q : List (Fin (2 ^ 3))) (hq : q.length = h) :
    |read (prune lo hi 0 t) q - clamp lo hi (read t q)| ≤ kEpsilon * h := by
  have hk : (0 : ℚ) ≤ kEpsilon := by norm_num [kEpsilon]
  have hleaf : ∀ (a : ℚ) (h : Nat) (q : List (Fin (2 ^ 3))),
      |read (prune lo hi 0 (.leaf a)) q - clamp lo hi (read (.leaf a) q)| ≤ kEpsilon * h := by
    intro a h q
    rw [prune, read_leaf, read_leaf, zero_add, sub_self, abs_zero]
    positivity
  induction h generalizing t q with
  | zero =>
    cases t with
    | nil => exact absurd rfl ht
    | leaf a => exact hleaf a 0 q
    | node a ch => simp [Clean, hasChildrenArray] at hz
  | succ h ih =>
    cases t with
    | nil => exact absurd rfl ht
    | leaf a => exact hleaf a (h + 1) q
    | node a ch =>
      have ha : a = 0 := hz.1 rfl
      subst ha
      obtain ⟨ch', e1, e2⟩ := prune_node0 (lo := lo) (hi := hi) ch
      cases q with
      | nil => simp at hq
      | cons i q =>
        have hq' : q.length = h := by simpa using hq
        rw [read_cons (NTree.node 0 ch), child_node]
        have hc0 : clamp lo hi 0 = 0 := clamp_id h0 h1
        by_cases hn : (ch i).isNil = true
        · rw [if_pos hn]
          have hd : dataOr0 (.node (0 : ℚ) ch : VTree) = 0 := rfl
          have hci : ch' i = .nil := by rw [e1, isNil_true hn, prune]
          rw [hd, hc0]
          rcases e2 with ⟨f, e2, _, e4⟩ | e2
          · have := (e4 i).2
            rw [hci] at this
            have hd0 : dataOr0 (.nil : VTree) = 0 := rfl
            rw [hd0, zero_sub, abs_neg] at this
            rw [e2, read_leaf, sub_zero]
            push_cast
            nlinarith
          · rw [e2, read_cons, child_node, hci]
            simp only [isNil, if_true]
            have hd' : dataOr0 (.node (0 : ℚ) ch' : VTree) = 0 := rfl
            rw [hd', sub_zero, abs_zero]
            positivity
        · rw [if_neg hn]
          have hne : ch i ≠ .nil := by intro e; rw [e] at hn; exact hn rfl
          have hi' := ih (ch i) hne (hz.2 i) q hq'
          rw [← e1] at hi'
          have hne' : ch' i ≠ .nil := by rw [e1]; exact prune_ne_nil _ _ hne
          rcases e2 with ⟨f, e2, _, e4⟩ | e2
          · obtain ⟨e5, e6⟩ := e4 i
            rw [leaf_of hne' e5, read_leaf] at hi'
            rw [e2, read_leaf]
            push_cast
            rw [abs_le] at hi' e6 ⊢
            constructor <;> linarith [hi'.1, hi'.2, e6.1, e6.2]
          · rw [e2, read_cons, child_node, isNil_false hne']
            simp only [Bool.false_eq_true, if_false]
            push_cast
            nlinarith

/-- If clamped cell values that differ do so by more than `kEpsilon`, pruning is exact. -/
theorem read_prune_exact (h0 : lo ≤ 0) (h1 : 0 ≤ hi) (h : Nat) (t : VTree) (ht : t ≠ .nil) (hz : Clean h t)
    (hsep : ∀ p q : List (Fin (2 ^ 3)), p.length = h → q.length = h →
      |clamp lo hi (read t p) - clamp lo hi (read t q)| ≤ kEpsilon → clamp lo hi (read t p) = clamp lo hi (read t q))
    (q : List (Fin (2 ^ 3))) (hq : q.length = h) :
    read (prune lo hi 0 t) q = clamp lo hi (read t q) := by
  induction h generalizing t q with
  | zero =>
    cases t with
    | nil => exact absurd rfl ht
    | leaf a => rw [prune, read_leaf, read_leaf, zero_add]
    | node a ch => simp [Clean, hasChildrenArray] at hz
  | succ h ih =>
    cases t with
    | nil => exact absurd rfl ht
    | leaf a => rw [prune, read_leaf, read_leaf, zero_add]
    | node a ch =>
      have ha : a = 0 := hz.1 rfl
      subst ha
      obtain ⟨ch', e1, e2⟩ := prune_node0 (lo := lo) (hi := hi) ch
      have hc0 : clamp lo hi 0 = 0 := clamp_id h0 h1
      have hd : dataOr0 (.node (0 : ℚ) ch : VTree) = 0 := rfl
      -- reads of the children
      have hr : ∀ i (q : List (Fin (2 ^ 3))), q.length = h →
          read (.node 0 ch) (i :: q) = if (ch i).isNil then 0 else read (ch i) q := by
        intro i q _
        rw [read_cons, child_node, hd]
      have hch : ∀ i (q : List (Fin (2 ^ 3))), q.length = h → (ch i).isNil = false →
          read (ch' i) q = clamp lo hi (read (ch i) q) := by
        intro i q hq hn
        rw [e1]
        apply ih (ch i) (by intro e; rw [e] at hn; cases hn) (hz.2 i) _ q hq
        intro p p' hp hp' hle
        have := hsep (i :: p) (i :: p') (by simpa using hp) (by simpa using hp')
        rw [hr i p hp, hr i p' hp', hn] at this
        exact this hle
      cases q with
      | nil => simp at hq
      | cons i q =>
        have hq' : q.length = h := by simpa using hq
        rcases e2 with ⟨f, e2, e3, e4⟩ | e2
        · -- collapsed: every child value is a clamped cell value
          have hval : ∀ i (q : List (Fin (2 ^ 3))), q.length = h →
              dataOr0 (ch' i) = clamp lo hi (read (.node 0 ch) (i :: q)) := by
            intro i q hq
            rw [hr i q hq]
            by_cases hn : (ch i).isNil = true
            · rw [if_pos hn, hc0, e1, isNil_true hn, prune]; rfl
            · have hn' : (ch i).isNil = false := by simpa using hn
              rw [if_neg hn]
              have := hch i q hq hn'
              have hne' : ch' i ≠ .nil := by
                rw [e1]; exact prune_ne_nil _ _ (by intro e; rw [e] at hn'; cases hn')
              rw [leaf_of hne' (e4 i).1, read_leaf] at this
              exact this
          rw [e2, read_leaf]
          have hf : f = clamp lo hi (read (.node 0 ch) (⟨0, by decide⟩ :: q)) := by
            rw [e3, hval _ q hq', clamp_clamp (le_trans h0 h1)]
          rw [hf]
          apply hsep _ _ (by simpa using hq') (by simpa using hq')
          rw [← hf, ← hval i q hq', abs_sub_comm]
          exact (e4 i).2
        · rw [e2, read_cons, child_node, hr i q hq']
          by_cases hn : (ch i).isNil = true
          · rw [if_pos hn, hc0, e1, isNil_true hn, prune]
            simp [isNil, dataOr0, data?]
          · have hn' : (ch i).isNil = false := by simpa using hn
            have hne' : ch' i ≠ .nil := by
              rw [e1]; exact prune_ne_nil _ _ (by intro e; rw [e] at hn'; cases hn')
            rw [if_neg hn, isNil_false hne']
            simp only [Bool.false_eq_true, if_false]
            exact hch i q hq' hn'

/-! ### Leaves -/

theorem leaves_filter (h : Nat) (t : VTree) (ht : t ≠ .nil) (hd : Clean h t) (n : NdtreeIndex 3)
    (hn : n.height = h) (j : Index 3) :
    (NodeRegion n j → ∃ n' : NdtreeIndex 3, 0 ≤ n'.height ∧ n'.height ≤ h ∧ NodeRegion n' j ∧
      (t.hasChildrenArray = true → n'.height < h) ∧
      (leaves t n 0).filter (fun e => decide (NodeRegion e.1 j)) = [(n', read t (cellPath h j))]) ∧
    (¬ NodeRegion n j → (leaves t n 0).filter (fun e => decide (NodeRegion e.1 j)) = []) := by
  have hleaf : ∀ a (h : Nat) (n : NdtreeIndex 3), n.height = h →
      (NodeRegion n j → ∃ n' : NdtreeIndex 3, 0 ≤ n'.height ∧ n'.height ≤ h ∧ NodeRegion n' j ∧
        ((NTree.leaf a : VTree).hasChildrenArray = true → n'.height < h) ∧
        (leaves (.leaf a) n 0).filter (fun e => decide (NodeRegion e.1 j)) = [(n', read (.leaf a) (cellPath h j))]) ∧
      (¬ NodeRegion n j → (leaves (.leaf a) n 0).filter (fun e => decide (NodeRegion e.1 j)) = []) := by
    intro a h n hn
    constructor
    · intro hr
      refine ⟨n, by omega, by omega, hr, by simp [hasChildrenArray], ?_⟩
      rw [leaves, read_leaf, zero_add, List.filter_cons_of_pos (by simpa using hr), List.filter_nil]
    · intro hr
      rw [leaves, List.filter_cons_of_neg (by simpa using hr), List.filter_nil]
  induction h generalizing t n with
  | zero =>
    cases t with
    | nil => exact absurd rfl ht
    | leaf a => exact hleaf a 0 n hn
    | node a ch => simp [Clean, hasChildrenArray] at hd
  | succ h ih =>
    cases t with
    | nil => exact absurd rfl ht
    | leaf a => exact hleaf a (h + 1) n hn
    | node a ch =>
      have ha : a = 0 := hd.1 rfl
      subst ha
      have hpos : 0 < n.height := by omega
      have hchild : ∀ c : Nat, (n.computeChildIndex c).height = h := by
        intro c; simp only [computeChildIndex, hn]; omega
      obtain ⟨hpart, huniq⟩ := C03_children_partition n hpos j
      have hzz : (0 : ℚ) + 0 = 0 := add_zero 0
      rw [leaves, List.filter_append, hzz]
      have ihc : ∀ c : Fin (2 ^ 3), ¬ NodeRegion (n.computeChildIndex c.val) j →
          (if (ch c).isNil then [] else leaves (ch c) (n.computeChildIndex c.val) 0).filter
            (fun e => decide (NodeRegion e.1 j)) = [] := by
        intro c hc
        split
        · rfl
        · next hh =>
          exact (ih (ch c) (by intro e; rw [e] at hh; exact hh rfl) (hd.2 c) _ (hchild c)).2 hc
      have ihd : ∀ c : Fin (2 ^ 3), ¬ NodeRegion (n.computeChildIndex c.val) j →
          (if (ch c).isNil then [(n.computeChildIndex c.val, (0 : ℚ))] else []).filter
            (fun e => decide (NodeRegion e.1 j)) = [] := by
        intro c hc
        split
        · rw [List.filter_cons_of_neg (by simpa using hc), List.filter_nil]
        · rfl
      constructor
      · intro hr
        have hanc : indexAndHeightToNodeIndex j (h + 1) = n := by
          have := (C03_region_iff_ancestor n (by omega) j).1 hr
          rwa [hn, Int.toNat_natCast] at this
        let c0 : Fin (2 ^ 3) := relFin (indexAndHeightToNodeIndex j h)
        have hc0 : n.computeChildIndex c0.val = indexAndHeightToNodeIndex j h := by
          have := (C02_child_of_parent (indexAndHeightToNodeIndex j h)).2
          rw [ancestor_parent, hanc] at this
          exact this
        have hr0 : NodeRegion (n.computeChildIndex c0.val) j := by rw [hc0]; exact C03_cover j h
        have hne : ∀ c : Fin (2 ^ 3), c ≠ c0 → ¬ NodeRegion (n.computeChildIndex c.val) j := by
          intro c hc hr
          exact hc (Fin.ext (huniq _ c.isLt _ c0.isLt hr hr0))
        rw [filter_flatMap_single _ (List.nodup_finRange _) c0 (List.mem_finRange _) _ _ (fun c hc => ihd c (hne c hc)),
          filter_flatMap_single (List.finRange (2 ^ 3)).reverse (List.nodup_reverse.2 (List.nodup_finRange _)) c0
            (List.mem_reverse.2 (List.mem_finRange _)) _ _ (fun c hc => ihc c (hne c hc))]
        have hcp : cellPath (h + 1) j = c0 :: cellPath h j := rfl
        by_cases hnil : (ch c0).isNil = true
        · refine ⟨n.computeChildIndex c0.val, by rw [hchild]; omega, by rw [hchild]; omega, hr0,
            fun _ => by rw [hchild]; omega, ?_⟩
          rw [if_pos hnil, if_pos hnil, List.filter_cons_of_pos (by simpa using hr0), hcp, read_cons, child_node, if_pos hnil]
          rfl
        · obtain ⟨n', h1, h2, h3, _, h4⟩ :=
            (ih (ch c0) (by intro e; rw [e] at hnil; exact hnil rfl) (hd.2 c0) _ (hchild c0)).1 hr0
          refine ⟨n', h1, by omega, h3, fun _ => by omega, ?_⟩
          rw [if_neg hnil, if_neg hnil, h4, hcp, read_cons, child_node, if_neg hnil]
          rfl
      · intro hr
        have hno : ∀ c : Fin (2 ^ 3), ¬ NodeRegion (n.computeChildIndex c.val) j := by
          intro c hc
          exact hr (hpart.2 ⟨c.val, c.isLt, hc⟩)
        rw [filter_flatMap_nil _ _ _ (fun c => ihd c (hno c)), filter_flatMap_nil _ _ _ (fun c => ihc c (hno c))]; rfl

end VTree
end Wavemap
