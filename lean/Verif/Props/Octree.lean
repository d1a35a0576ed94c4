import Verif.Lemmas.Ndtree
/-!
# C12, C13: the octree container

Specification: a partial map from node indices to payloads. `NodeInTree H n` and `IsAncestorOrSelf n m`
(from `Lemmas/Ndtree.lean`) say in terms of `computeParentIndex(height)` which indices belong to a tree of
height `H` and when `n` is `m` or an ancestor of `m`.
-/
namespace Wavemap
open NdtreeIndex
variable {d : Nat} {α : Type}

/-- The operations of the container API. -/
inductive NodeOp (d : Nat) (α : Type) where
  /-- `getOrAllocateNode(n, dflt)` -/
  | allocate (n : NdtreeIndex d) (dflt : α)
  /-- `if (auto* node = getNode(n)) node->data() = a` -/
  | write (n : NdtreeIndex d) (a : α)
  /-- `eraseNode(n)` -/
  | erase (n : NdtreeIndex d)

namespace NodeOp

/-- The operation on the modelled container. -/
def run (t : Ndtree d α) : NodeOp d α → Ndtree d α
  | allocate n a => t.getOrAllocateNode n a
  | write n a => t.setNodeData n a
  | erase n => (t.eraseNode n).1

/-- The operation on a plain table. -/
def spec (m : NdtreeIndex d → Option α) : NodeOp d α → (NdtreeIndex d → Option α)
  | allocate n a => fun k => if IsAncestorOrSelf k n then some ((m k).getD a) else m k
  | write n a => fun k => if k = n then (m k).map (fun _ => a) else m k
  | erase n => fun k => if IsAncestorOrSelf n k then none else m k

/-- Operations are only issued on nodes of the tree, and the root is never erased. -/
def Valid (H : Nat) : NodeOp d α → Prop
  | allocate n _ => NodeInTree H n
  | write n _ => NodeInTree H n
  | erase n => NodeInTree H n ∧ n.height < H

end NodeOp

/-- A fresh tree holds only the root. -/
def freshSpec (H : Nat) (a : α) : NdtreeIndex d → Option α :=
  fun k => if k = rootIndex d H then some a else none

theorem run_maxHeight (t : Ndtree d α) (op : NodeOp d α) : (op.run t).maxHeight = t.maxHeight := by
  cases op <;> rfl

theorem run_root_ne_nil (t : Ndtree d α) (ht : t.root ≠ .nil) (op : NodeOp d α) :
    (op.run t).root ≠ .nil := by
  cases op with
  | allocate n a => exact NTree.allocPath_ne_nil _ _ ht _
  | write n a =>
    exact NTree.modifyAt_ne_nil _ (by intro s hs; cases s <;> simp_all [NTree.setData]) _ ht _
  | erase n =>
    exact NTree.modifyAt_ne_nil _ (by intro s hs; cases s <;> simp_all [NTree.eraseChild]) _ ht _

theorem run_step (hd : 1 ≤ d ∧ d ≤ 3) (t : Ndtree d α) (hH : t.maxHeight ≤ maxTreeHeight d)
    (ht : t.root ≠ .nil) (m : NdtreeIndex d → Option α)
    (hm : ∀ k, NodeInTree t.maxHeight k → (t.getNode k).data? = m k)
    (op : NodeOp d α) (hop : op.Valid t.maxHeight) (k : NdtreeIndex d) (hk : NodeInTree t.maxHeight k) :
    ((op.run t).getNode k).data? = op.spec m k := by
  have hm' : t.root.lookup (nodePath t.maxHeight k) = m k := hm k hk
  cases op with
  | allocate n a =>
    show (NTree.allocPath a t.root (nodePath t.maxHeight n)).lookup (nodePath t.maxHeight k) = _
    rw [NTree.allocPath_lookup _ _ ht, hm', NodeOp.spec]
    simp only [nodePath_prefix_iff hd hH hk hop]
  | write n a =>
    show (NTree.modifyAt _ t.root (nodePath t.maxHeight n)).lookup (nodePath t.maxHeight k) = _
    simp only [NodeOp.spec]
    by_cases hpre : nodePath t.maxHeight n <+: nodePath t.maxHeight k
    · obtain ⟨q, hq⟩ := hpre
      rw [← hq, NTree.lookup, NTree.modifyAt_descend]
      rw [← hq, NTree.lookup_append] at hm'
      split
      · rename_i hnil
        rw [NTree.isNil_iff] at hnil
        rw [hnil] at hm'
        simp only [NTree.nil_lookup] at hm'
        simp [← hm']
      · rw [← NTree.lookup, NTree.setData_lookup]
        by_cases hq0 : q = []
        · subst hq0
          rw [List.append_nil] at hq
          have hkn : n = k := (nodePath_injective hd hH hop hk).mp hq
          simp only [if_true, hkn.symm]
          subst hkn
          rw [← hm']; simp
        · have hkn : k ≠ n := by
            rintro rfl
            simp at hq; exact hq0 hq
          simp only [hq0, if_false, hkn, hm']
    · rw [NTree.modifyAt_lookup_of_not_prefix _ _ _ _ hpre, hm']
      have : k ≠ n := by
        rintro rfl; exact hpre (List.prefix_refl _)
      simp [this]
  | erase n =>
    obtain ⟨hn, hlt⟩ := hop
    have hp := hn.parent hlt
    have hc : (⟨n.computeRelativeChildIndex % 2 ^ d, Nat.mod_lt _ (Nat.two_pow_pos d)⟩ : Fin (2 ^ d))
        = relFin n := by
      apply Fin.ext; exact Nat.mod_eq_of_lt (relChild_spec n).1
    have hpath := nodePath_parent hd hH hn hlt
    have hiff := nodePath_prefix_iff hd hH hn hk
    show (NTree.modifyAt _ t.root (nodePath t.maxHeight n.computeParentIndex)).lookup (nodePath t.maxHeight k) = _
    simp only [hc]
    show _ = if IsAncestorOrSelf n k then none else m k
    by_cases hpre : nodePath t.maxHeight n.computeParentIndex <+: nodePath t.maxHeight k
    · obtain ⟨q, hq⟩ := hpre
      rw [← hq, NTree.lookup, NTree.modifyAt_descend]
      rw [hpath, ← hq, List.prefix_append_right_inj] at hiff
      rw [← hq, NTree.lookup_append] at hm'
      split
      · rename_i hnil
        rw [NTree.isNil_iff] at hnil
        rw [hnil] at hm'
        simp only [NTree.nil_lookup] at hm'
        simp [← hm']
      · rw [← NTree.lookup, NTree.eraseChild_lookup]
        simp only [hiff, hm']
    · rw [NTree.modifyAt_lookup_of_not_prefix _ _ _ _ hpre, hm']
      have : ¬ IsAncestorOrSelf n k := by
        rw [← hiff, hpath]
        intro h
        exact hpre ((List.prefix_append _ _).trans h)
      simp [this]

theorem fresh_getNode (hd : 1 ≤ d ∧ d ≤ 3) {H : Nat} (hH : H ≤ maxTreeHeight d) (a : α) (k : NdtreeIndex d)
    (hk : NodeInTree H k) : ((Ndtree.create H a : Ndtree d α).getNode k).data? = freshSpec H a k := by
  show (NTree.leaf a).lookup (nodePath H k) = _
  unfold freshSpec
  have h := nodePath_injective hd hH hk (n := k) (m := rootIndex d H)
    ⟨by simp [rootIndex], by simp [rootIndex], fun i => by simp [rootIndex]⟩
  rw [nodePath_root] at h
  rcases hp : nodePath H k with _ | ⟨c, p⟩
  · rw [hp] at h; simp only [true_iff] at h; simp [h]
  · rw [hp] at h
    have : k ≠ rootIndex d H := by rw [← not_iff_not] at h; exact h.mp (by simp)
    simp [this]

theorem run_list (hd : 1 ≤ d ∧ d ≤ 3) {H : Nat} (hH : H ≤ maxTreeHeight d) (ops : List (NodeOp d α))
    (hops : ∀ op ∈ ops, op.Valid H) (t : Ndtree d α) (hth : t.maxHeight = H) (ht : t.root ≠ .nil)
    (m : NdtreeIndex d → Option α) (hm : ∀ k, NodeInTree H k → (t.getNode k).data? = m k) :
    (ops.foldl NodeOp.run t).maxHeight = H ∧ (ops.foldl NodeOp.run t).root ≠ .nil ∧
    ∀ k, NodeInTree H k → ((ops.foldl NodeOp.run t).getNode k).data? = ops.foldl NodeOp.spec m k := by
  induction ops generalizing t m with
  | nil => exact ⟨hth, ht, hm⟩
  | cons op ops ih =>
    simp only [List.foldl_cons]
    subst hth
    apply ih
    · exact fun o ho => hops o (List.mem_cons_of_mem _ ho)
    · exact run_maxHeight t op
    · exact run_root_ne_nil t ht op
    · intro k hk
      exact run_step hd t hH ht m hm op (hops op List.mem_cons_self) k hk

/-- **C12.** After any sequence of allocate, write and erase operations on a fresh tree, reading any node of
the tree gives what the plain table updated by the same operations holds: `none` (null) exactly for nodes
that are not allocated. -/
theorem C12_container_is_map (hd : 1 ≤ d ∧ d ≤ 3) {H : Nat} (hH : H ≤ maxTreeHeight d) (a : α)
    (ops : List (NodeOp d α)) (hops : ∀ op ∈ ops, op.Valid H) (k : NdtreeIndex d) (hk : NodeInTree H k) :
    ((ops.foldl NodeOp.run (Ndtree.create H a)).getNode k).data?
      = ops.foldl NodeOp.spec (freshSpec H a) k :=
  (run_list hd hH ops hops _ rfl (by simp [Ndtree.create]) _ (fresh_getNode hd hH a)).2.2 k hk

/-- A mixed history on a height-2 octree: allocate a leaf, write it and its parent, erase the parent. -/
example :
    let leaf : NdtreeIndex 3 := ⟨0, ![1, 2, 3]⟩
    let mid : NdtreeIndex 3 := ⟨1, ![0, 1, 1]⟩
    let ops : List (NodeOp 3 Nat) := [.allocate leaf 0, .write leaf 5, .write mid 7]
    let ops' : List (NodeOp 3 Nat) := ops ++ [.erase mid]
    (∀ op ∈ ops', op.Valid 2) ∧
    ((ops.foldl NodeOp.run (Ndtree.create 2 9)).getNode leaf).data? = some 5 ∧
    ((ops.foldl NodeOp.run (Ndtree.create 2 9)).getNode mid).data? = some 7 ∧
    ((ops'.foldl NodeOp.run (Ndtree.create 2 9)).getNode leaf).data? = none ∧
    ((ops'.foldl NodeOp.run (Ndtree.create 2 9)).getNode (rootIndex 3 2)).data? = some 9 := by
  refine ⟨?_, by decide +kernel, by decide +kernel, by decide +kernel, by decide +kernel⟩
  intro op hop
  simp only [List.mem_append, List.mem_cons, List.not_mem_nil, or_false] at hop
  rcases hop with ((rfl | rfl | rfl) | rfl) <;> simp only [NodeOp.Valid, NodeInTree] <;> decide

/-- **C12** (finding). The restriction "the root is never erased" is needed: `eraseNode` on the root index
does not reject the call but removes the root's first child (with everything below it) and reports success. -/
theorem C12_erase_root_erases_first_child :
    let t : Ndtree 3 Nat := (Ndtree.create 2 9).getOrAllocateNode ⟨1, ![0, 0, 0]⟩ 5
    ((t.getNode ⟨1, ![0, 0, 0]⟩).data? = some 5) ∧
    ((t.eraseNode (rootIndex 3 2)).2 = true) ∧
    (((t.eraseNode (rootIndex 3 2)).1.getNode ⟨1, ![0, 0, 0]⟩).data? = none) ∧
    (((t.eraseNode (rootIndex 3 2)).1.getNode (rootIndex 3 2)).data? = some 9) := by
  decide +kernel

/-- In a tree, a node's ancestors are allocated whenever the node is. -/
theorem lookup_prefix {n : Nat} (t : NTree n α) (p q : List (Fin n)) (h : (t.descend (p ++ q)) ≠ .nil) :
    t.descend p ≠ .nil := by
  intro h'
  rw [NTree.descend_append, h'] at h
  simp at h

theorem descendOrAncestor_spec {n : Nat} (t : NTree n α) (ht : t ≠ .nil) (p : List (Fin n)) :
    ∃ l ≤ p.length, (t.descendOrAncestor p).2 = p.length - l ∧
      (t.descendOrAncestor p).1 = t.descend (p.take l) ∧ (t.descendOrAncestor p).1 ≠ .nil ∧
      ∀ l', l < l' → l' ≤ p.length → t.descend (p.take l') = .nil := by
  induction p generalizing t with
  | nil => exact ⟨0, by simp, by simp [NTree.descendOrAncestor], by simp [NTree.descendOrAncestor],
      by simpa [NTree.descendOrAncestor] using ht, by intro l' h1 h2; simp at h2; omega⟩
  | cons i p ih =>
    rcases hc : t.child i with _ | a | ⟨a, ch⟩
    · refine ⟨0, by simp, by simp [NTree.descendOrAncestor, hc], by simp [NTree.descendOrAncestor, hc], by simpa [NTree.descendOrAncestor, hc] using ht, ?_⟩
      intro l' h1 _
      obtain ⟨l'', rfl⟩ : ∃ l'', l' = l'' + 1 := ⟨l' - 1, by omega⟩
      simp [hc]
    all_goals
      obtain ⟨l, h1, h2, h3, h4, h5⟩ := ih (t.child i) (by rw [hc]; simp)
      have e : t.descendOrAncestor (i :: p) = (t.child i).descendOrAncestor p := by
        simp only [NTree.descendOrAncestor, hc]
      refine ⟨l + 1, by simp; omega, by rw [e, h2]; simp, by rw [e, h3]; simp, by rw [e]; exact h4, ?_⟩
      intro l' h6 h7
      obtain ⟨l'', rfl⟩ : ∃ l'', l' = l'' + 1 := ⟨l' - 1, by omega⟩
      simp only [List.take_succ_cons, NTree.descend_cons]
      exact h5 l'' (by omega) (by simp at h7; omega)

theorem indexOfPath_take (hd : 1 ≤ d ∧ d ≤ 3) {H : Nat} (hH : H ≤ maxTreeHeight d)
    {k : NdtreeIndex d} (hk : NodeInTree H k) (h : Int) (hh : k.height ≤ h) (hh2 : h ≤ H) :
    NodeInTree H (k.computeParentIndexAt h) ∧
    nodePath H (k.computeParentIndexAt h) = (nodePath H k).take (H - h.toNat) := by
  have h0 := hk.1
  have h3 := indexOfPath_parentAt H ((nodePath H k).take (H - h.toNat))
    ((nodePath H k).drop (H - h.toNat))
  have lk := nodePath_length hk
  rw [List.take_append_drop, indexOfPath_nodePath hd hH k hk, List.length_take, lk,
    show (H : Int) - ((min (H - h.toNat) (H - k.height.toNat) : Nat) : Int) = h by omega] at h3
  rw [h3]
  have hl : ((nodePath H k).take (H - h.toNat)).length ≤ H := by rw [List.length_take]; omega
  exact ⟨indexOfPath_inTree H _ hl, nodePath_indexOfPath hd hH _ hl⟩

/-- **C13.** For every tree with an allocated root (as every constructed tree has) and every node index of
the tree, `getNodeOrAncestor` returns a height between the node's height and the tree's; the node it
returns is the allocated ancestor of the queried node at that height; and no ancestor of the queried node
below that height is allocated. In particular it is the node itself if that is allocated. -/
theorem C13_deepest_allocated_ancestor (hd : 1 ≤ d ∧ d ≤ 3) (t : Ndtree d α)
    (hH : t.maxHeight ≤ maxTreeHeight d) (ht : t.root ≠ .nil) (k : NdtreeIndex d)
    (hk : NodeInTree t.maxHeight k) :
    let r := t.getNodeOrAncestor k
    k.height ≤ r.2 ∧ r.2 ≤ t.maxHeight ∧ r.1 ≠ .nil ∧
    r.1 = t.getNode (k.computeParentIndexAt r.2) ∧
    (∀ h, k.height ≤ h → h < r.2 → t.getNode (k.computeParentIndexAt h) = .nil) ∧
    (t.getNode k ≠ .nil → r = (t.getNode k, k.height)) := by
  obtain ⟨l, h1, h2, h3, h4, h5⟩ := descendOrAncestor_spec t.root ht (nodePath t.maxHeight k)
  have lk := nodePath_length hk
  have hk0 := hk.1; have hk1 := hk.2.1
  have hr1 : (t.getNodeOrAncestor k).1 = (t.root.descendOrAncestor (nodePath t.maxHeight k)).1 := rfl
  have hr2 : (t.getNodeOrAncestor k).2
      = k.height + (t.root.descendOrAncestor (nodePath t.maxHeight k)).2 := rfl
  have hr2' : (t.getNodeOrAncestor k).2 = (t.maxHeight : Int) - l := by rw [hr2, h2]; omega
  have key : ∀ h, k.height ≤ h → h < (t.getNodeOrAncestor k).2 →
      t.getNode (k.computeParentIndexAt h) = .nil := by
    intro h g1 g2
    unfold Ndtree.getNode
    rw [(indexOfPath_take hd hH hk h g1 (by omega)).2]
    exact h5 _ (by omega) (by omega)
  refine ⟨by rw [hr2]; omega, by rw [hr2']; omega, by rw [hr1]; exact h4, ?_, key, ?_⟩
  · rw [hr1, h3]
    unfold Ndtree.getNode
    rw [(indexOfPath_take hd hH hk _ (by omega) (by omega)).2, hr2']
    congr 2
    omega
  · intro hne
    have hl : l = (nodePath t.maxHeight k).length := by
      rcases Nat.lt_or_eq_of_le h1 with hlt | he
      · exact absurd (by simpa [Ndtree.getNode] using h5 _ hlt (Nat.le_refl _)) hne
      · exact he
    apply Prod.ext
    · rw [hr1, h3, hl]; simp [Ndtree.getNode]
    · rw [hr2', hl, lk]; simp only; omega

/-- A query whose node is missing returns its grandparent, and one whose node is allocated the node. -/
example :
    let t : Ndtree 3 Nat := (Ndtree.create 3 9).getOrAllocateNode ⟨2, ![1, 0, 0]⟩ 5
    (t.getNodeOrAncestor ⟨0, ![7, 1, 0]⟩).1.data? = some 5 ∧
    (t.getNodeOrAncestor ⟨0, ![7, 1, 0]⟩).2 = 2 ∧
    (t.getNodeOrAncestor ⟨2, ![1, 0, 0]⟩).2 = 2 ∧ (t.getNodeOrAncestor ⟨0, ![0, 1, 0]⟩).2 = 3 := by
  decide +kernel

end Wavemap
