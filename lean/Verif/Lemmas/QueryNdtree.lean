import Verif.Lemmas.QueryAccelerator
import Verif.Props.NdtreeBlockHash
/-! # Invariant of the accelerator of hashed octrees -/
namespace Wavemap
open NdtreeIndex
variable {α : Type}

namespace NTree
variable {n : Nat}

theorem allocPath_nil_path (v : α) (t : NTree n α) : allocPath v t [] = t := by cases t <;> rfl

theorem getOrAllocateChild_of_ne (t : NTree n α) (i : Fin n) (v : α) (h : t.child i ≠ nil) : t.getOrAllocateChild i v = t.child i := by
  unfold getOrAllocateChild
  cases hc : t.child i with
  | nil => exact absurd hc h
  | leaf a => rfl
  | node a ch => rfl

theorem allocPath_exists (v : α) (p : List (Fin n)) : ∀ t : NTree n α, t.descend p ≠ nil → allocPath v t p = t := by
  induction p with
  | nil => intro t _; exact allocPath_nil_path v t
  | cons i p ih =>
    intro t h
    rw [descend_cons] at h
    have hc : t.child i ≠ nil := by rintro hc; rw [hc] at h; simp at h
    have : allocPath v t (i :: p) = t.setChild i (allocPath v (t.getOrAllocateChild i v) p) := by cases t <;> rfl
    rw [this, getOrAllocateChild_of_ne t i v hc, ih _ h]
    cases t with
    | nil => rfl
    | leaf a => exact absurd rfl hc
    | node a ch =>
      simp only [setChild, child_node]
      congr 1
      funext j
      split
      · next hj => rw [hj]
      · rfl

theorem allocPath_snoc (v : α) (c : Fin n) (p : List (Fin n)) : ∀ t : NTree n α, t ≠ nil →
    allocPath v t (p ++ [c]) = modifyAt (fun s => s.setChild c (s.getOrAllocateChild c v)) (allocPath v t p) p := by
  induction p with
  | nil =>
    intro t ht
    rw [allocPath_nil_path, modifyAt_nil _ _ ht, List.nil_append]
    have : allocPath v t [c] = t.setChild c (allocPath v (t.getOrAllocateChild c v) []) := by cases t <;> rfl
    rw [this, allocPath_nil_path]
  | cons i p ih =>
    intro t ht
    have e1 : ∀ q, allocPath v t (i :: q) = t.setChild i (allocPath v (t.getOrAllocateChild i v) q) := by intro q; cases t <;> rfl
    rw [List.cons_append, e1, e1, ih _ (getOrAllocateChild_ne_nil _ _ _)]
    cases t with
    | nil => exact absurd rfl ht
    | leaf a =>
      simp only [setChild, modifyAt, if_true]
      congr 1
      funext j
      by_cases hj : j = i <;> simp [hj]
    | node a ch =>
      simp only [setChild, modifyAt, if_true]
      congr 1
      funext j
      by_cases hj : j = i <;> simp [hj]

theorem descendOrAncestor_append (p : List (Fin n)) (q : List (Fin n)) : ∀ t : NTree n α, t.descend p ≠ nil →
    t.descendOrAncestor (p ++ q) = (t.descend p).descendOrAncestor q := by
  induction p with
  | nil => intro t _; rw [descend_nil', List.nil_append]
  | cons i p ih =>
    intro t h
    rw [descend_cons] at h ⊢
    rw [List.cons_append, ← ih _ h]
    have hc : t.child i ≠ nil := by rintro hc; rw [hc] at h; simp at h
    cases hx : t.child i with
    | nil => exact absurd hx hc
    | leaf a => simp only [descendOrAncestor, hx]
    | node a ch => simp only [descendOrAncestor, hx]

theorem descendOrAncestor_nil (t : NTree n α) : t.descendOrAncestor [] = (t, 0) := by cases t <;> rfl

theorem descendOrAncestor_stop (t : NTree n α) (c : Fin n) (q : List (Fin n)) (h : t.child c = nil) :
    t.descendOrAncestor (c :: q) = (t, q.length + 1) := by
  simp only [descendOrAncestor, h]

end NTree

/-- The path to a lower height continues the path to a higher one. -/
theorem mortonPath_extend (m : Nat) {H h t : Nat} (ht : t ≤ h) (hh : h ≤ H) :
    ∃ q, mortonPath 3 m H t = mortonPath 3 m H h ++ q ∧ (t < h → ∃ q', q = mortonChild m h :: q') := by
  obtain ⟨e, rfl⟩ : ∃ e, h = t + e := ⟨h - t, by omega⟩
  induction e with
  | zero => exact ⟨[], by simp, by omega⟩
  | succ e ih =>
    obtain ⟨q, hq, -⟩ := ih (by omega) (by omega)
    refine ⟨mortonChild m (t + e + 1) :: q, ?_, fun _ => ⟨q, rfl⟩⟩
    rw [hq, mortonPath_step _ (show t + e < H by omega)]
    simp [Nat.add_assoc]

namespace NdtreeAccelerator
open NdtreeBlockHash

/-- The stack holds the addresses of the nodes along the path of the Morton code, from the root down to height `h`. -/
structure Stack (m : NdtreeBlockHash 3 α) (a : NdtreeAccelerator) (h : Nat) : Prop where
  le : h ≤ m.maxHeight
  node : ∀ k, h ≤ k → k ≤ m.maxHeight → a.nodeStack k = some (a.blockIndex, mortonPath 3 a.mortonCode m.maxHeight k)
  ex : ∀ k, h ≤ k → k ≤ m.maxHeight → deref m (a.blockIndex, mortonPath 3 a.mortonCode m.maxHeight k) ≠ .nil

theorem Stack.withHeight {m : NdtreeBlockHash 3 α} {a : NdtreeAccelerator} {h : Nat} (hs : Stack m a h) (h' : Nat) :
    Stack m { a with height := h' } h := ⟨hs.le, hs.node, hs.ex⟩

/-- The accelerator belongs to the data structure and its last query. -/
inductive Inv (m : NdtreeBlockHash 3 α) (a : NdtreeAccelerator) : Prop where
  | missing (hb : a.blockIndex = noBlockIndex ∨ m.blocks.getBlock a.blockIndex = none) (hn : a.hasBlock = false) (hh : a.height = m.maxHeight)
  | loaded (n : NdtreeIndex 3) (hn : NodeInHash m.maxHeight n) (hb : m.indexToBlockIndex n = a.blockIndex) (hne : a.blockIndex ≠ noBlockIndex)
      (hm : a.mortonCode = nodeIndexToMorton n) (hl : a.hasBlock = true) (hs : Stack m a a.height) (hh : n.height.toNat ≤ a.height)

theorem fresh_inv (m : NdtreeBlockHash 3 α) : Inv m (fresh m) := .missing (Or.inl rfl) rfl rfl

theorem deref_some {m : NdtreeBlockHash 3 α} {b : Index 3} {x : Ndtree 3 α} (h : m.blocks.getBlock b = some x) (p : List (Fin (2 ^ 3))) :
    deref m (b, p) = x.root.descend p := by
  unfold deref; dsimp only; rw [h]

theorem deref_append (m : NdtreeBlockHash 3 α) (b : Index 3) (p q : List (Fin (2 ^ 3))) :
    deref m (b, p ++ q) = (deref m (b, p)).descend q := by
  unfold deref; dsimp only
  cases m.blocks.getBlock b with
  | none => simp
  | some x => exact NTree.descend_append _ _ _

theorem nodePath_indexToCell (m : NdtreeBlockHash 3 α) (hH : m.maxHeight ≤ 20) (n : NdtreeIndex 3) (hn : NodeInHash m.maxHeight n) :
    nodePath m.maxHeight (m.indexToCellIndex n) = mortonPath 3 (nodeIndexToMorton n) m.maxHeight n.height.toNat :=
  nodePath_cellInBlock hH n hn.1 hn.2

theorem blk_eq_blockOfNode (m : NdtreeBlockHash 3 α) (n : NdtreeIndex 3) (hn : NodeInHash m.maxHeight n) :
    m.indexToBlockIndex n = blockOfNode m.maxHeight n := by
  funext i
  rw [NdtreeBlockHash.blk_eq, blockOfNode]
  have h0 := hn.1; have h1 := hn.2
  congr 2
  omega

/-- The height from which a query walks down, and the stack there. -/
theorem start_spec {m : NdtreeBlockHash 3 α} {a : NdtreeAccelerator} (n' n : NdtreeIndex 3) (hn' : NodeInHash m.maxHeight n')
    (hn : NodeInHash m.maxHeight n) (hb : m.indexToBlockIndex n' = a.blockIndex) (he : m.indexToBlockIndex n = a.blockIndex)
    (hm : a.mortonCode = nodeIndexToMorton n') (hs : Stack m a a.height) (L : Nat)
    (hL : L = if a.height ≠ m.maxHeight then lastCommonAncestorHeight 3 (nodeIndexToMorton n) n.height.toNat a.mortonCode a.height else a.height) :
    n.height.toNat ≤ L ∧ Stack m { a with mortonCode := nodeIndexToMorton n } L := by
  have hn0 := hn.1; have hn1 := hn.2
  by_cases hh : a.height = m.maxHeight
  · rw [if_neg (by simpa using hh)] at hL
    subst hL
    refine ⟨by omega, ⟨hs.le, ?_, ?_⟩⟩
    · intro k hk1 hk2
      have := hs.node k hk1 hk2
      rw [mortonPath_of_le _ (by omega)] at this
      dsimp only
      rw [this, mortonPath_of_le _ (by omega)]
    · intro k hk1 hk2
      have := hs.ex k hk1 hk2
      rw [mortonPath_of_le _ (by omega)] at this
      dsimp only
      rw [mortonPath_of_le _ (by omega)]; exact this
  · rw [if_pos hh] at hL
    have hmlt : a.mortonCode < 2 ^ 64 := by rw [hm]; exact morton_lt n'
    obtain ⟨l1, l2, l3⟩ := lca_spec (h := n.height.toNat) (h' := a.height) (morton_lt n) hmlt
    have hsame : nodeIndexToMorton n / 2 ^ (m.maxHeight * 3) = a.mortonCode / 2 ^ (m.maxHeight * 3) := by
      rw [hm]
      exact morton_sameBlock n n' hn.2 hn'.2 (by rw [← blk_eq_blockOfNode m n hn, ← blk_eq_blockOfNode m n' hn', hb, he])
    have l4 := lca_le (h := n.height.toNat) (h' := a.height) (morton_lt n) hmlt (by omega) hs.le hsame
    rw [← hL] at l1 l2 l3 l4
    refine ⟨l1, ⟨l4, ?_, ?_⟩⟩
    · intro k hk1 hk2
      dsimp only
      rw [l3 _ k hk1]; exact hs.node k (by omega) hk2
    · intro k hk1 hk2
      dsimp only
      rw [l3 _ k hk1]; exact hs.ex k (by omega) hk2

theorem walk_spec {m : NdtreeBlockHash 3 α} (hH : m.maxHeight < 20) (target : Nat) : ∀ (h : Nat) (a : NdtreeAccelerator),
    Stack m a h → target ≤ h → ∃ a', walk m target h a = some ((a.blockIndex, mortonPath 3 a.mortonCode m.maxHeight a'.height), a') ∧
      Stack m a' a'.height ∧ target ≤ a'.height ∧ a'.blockIndex = a.blockIndex ∧ a'.mortonCode = a.mortonCode ∧ a'.hasBlock = a.hasBlock ∧
      (target < a'.height → (deref m (a.blockIndex, mortonPath 3 a.mortonCode m.maxHeight a'.height)).child
        (mortonChild a.mortonCode a'.height) = .nil) := by
  intro h
  induction h with
  | zero =>
    intro a hs ht
    obtain rfl : target = 0 := by omega
    refine ⟨{ a with height := 0 }, ?_, hs.withHeight 0, Nat.le_refl _, rfl, rfl, rfl, by simp⟩
    rw [walk, stackAt_lt _ (by omega), hs.node 0 (Nat.le_refl _) hs.le]
    simp
  | succ h ih =>
    intro a hs ht
    have hle := hs.le
    rw [walk, stackAt_lt _ (by omega), hs.node _ (Nat.le_refl _) hle]
    dsimp only
    by_cases htl : target < h + 1
    · rw [if_pos htl]
      by_cases hc : ((deref m (a.blockIndex, mortonPath 3 a.mortonCode m.maxHeight (h + 1))).child (mortonChild a.mortonCode (h + 1))).isNil = true
      · rw [if_pos hc]
        exact ⟨{ a with height := h + 1 }, rfl, hs.withHeight _, ht, rfl, rfl, rfl, fun _ => NTree.isNil_iff.1 hc⟩
      · rw [if_neg hc, stackPut_lt _ (by omega)]
        dsimp only
        have hstep := mortonPath_step a.mortonCode (show h < m.maxHeight by omega)
        have := ih { a with nodeStack := fun j => if j = h then some (a.blockIndex,
            mortonPath 3 a.mortonCode m.maxHeight (h + 1) ++ [mortonChild a.mortonCode (h + 1)]) else a.nodeStack j } ⟨by omega, ?_, ?_⟩ (by omega)
        · exact this
        · intro k hk1 hk2
          dsimp only
          by_cases hk : k = h
          · subst hk; rw [if_pos rfl, hstep]
          · rw [if_neg hk]; exact hs.node k (by omega) hk2
        · intro k hk1 hk2
          dsimp only
          by_cases hk : k = h
          · subst hk
            rw [hstep, deref_append, NTree.descend_cons, NTree.descend_nil']
            intro hcn; exact hc (NTree.isNil_iff.2 hcn)
          · exact hs.ex k (by omega) hk2
    · rw [if_neg htl]
      exact ⟨{ a with height := h + 1 }, rfl, hs.withHeight _, ht, rfl, rfl, rfl, fun hx => absurd hx htl⟩

/-- `getNode` finds the nearest existing ancestor. -/
theorem getNode_spec {m : NdtreeBlockHash 3 α} (hw : m.Wf) (hH : m.maxHeight < 20) (a : NdtreeAccelerator) (ha : Inv m a) (n : NdtreeIndex 3)
    (hn : NodeInHash m.maxHeight n) (hne : m.indexToBlockIndex n ≠ noBlockIndex) :
    ∃ r a', getNode m a n = some (r, a') ∧ Inv m a' ∧
      (match r with | none => NTree.nil | some x => deref m x) = (m.getNodeOrAncestor n).1 ∧
      (r ≠ none → (a'.height : Int) = (m.getNodeOrAncestor n).2) := by
  have hn0 := hn.1; have hn1 := hn.2
  -- the common part after the stack is set up
  have main : ∀ (a₁ : NdtreeAccelerator) (L : Nat), a₁.blockIndex = m.indexToBlockIndex n → a₁.mortonCode = nodeIndexToMorton n → a₁.hasBlock = true →
      Stack m a₁ L → n.height.toNat ≤ L →
      ∃ r a', ((walk m n.height.toNat L a₁).map fun r => (some r.1, r.2)) = some (r, a') ∧ Inv m a' ∧
        (match r with | none => NTree.nil | some x => deref m x) = (m.getNodeOrAncestor n).1 ∧ (r ≠ none → (a'.height : Int) = (m.getNodeOrAncestor n).2) := by
    intro a₁ L hb1 hm1 hl1 hs1 ht1
    obtain ⟨a', e, hs', ht', hb', hm', hl', hstop⟩ := walk_spec hH n.height.toNat L a₁ hs1 ht1
    have hle' := hs'.le
    refine ⟨some _, a', by rw [e]; rfl, .loaded n hn (by rw [hb', hb1]) (by rw [hb', hb1]; exact hne) (by rw [hm', hm1]) (by rw [hl', hl1]) hs' ht', ?_⟩
    have hex := hs'.ex a'.height (Nat.le_refl _) hle'
    rw [hb', hm'] at hex
    have hg : ∃ x, m.blocks.getBlock a₁.blockIndex = some x := by
      cases hg : m.blocks.getBlock a₁.blockIndex with
      | none => unfold deref at hex; dsimp only at hex; rw [hg] at hex; exact absurd rfl hex
      | some x => exact ⟨x, rfl⟩
    obtain ⟨x, hg⟩ := hg
    rw [deref_some hg] at hex
    rw [deref_some hg] at hstop
    dsimp only
    rw [deref_some hg]
    have hanc : m.getNodeOrAncestor n = x.getNodeOrAncestor (m.indexToCellIndex n) := by
      unfold NdtreeBlockHash.getNodeOrAncestor; rw [← hb1, hg]
    have hpath : nodePath x.maxHeight (m.indexToCellIndex n) = mortonPath 3 a₁.mortonCode m.maxHeight n.height.toNat := by
      rw [hw.height _ _ hg, hm1]
      exact nodePath_indexToCell m (by omega) n hn
    obtain ⟨q, hq, hq'⟩ := mortonPath_extend a₁.mortonCode ht' hle'
    have hda : x.root.descendOrAncestor (nodePath x.maxHeight (m.indexToCellIndex n)) =
        (x.root.descend (mortonPath 3 a₁.mortonCode m.maxHeight a'.height), a'.height - n.height.toNat) := by
      rw [hpath, hq, NTree.descendOrAncestor_append _ _ _ hex]
      have hlen := congrArg List.length hq
      rw [List.length_append, mortonPath_length _ (by omega), mortonPath_length _ hle'] at hlen
      by_cases htl : n.height.toNat < a'.height
      · obtain ⟨q', rfl⟩ := hq' htl
        rw [NTree.descendOrAncestor_stop _ _ _ (hstop htl)]
        simp only [List.length_cons] at hlen
        congr 1; omega
      · have : q = [] := by apply List.length_eq_zero_iff.1; omega
        subst this
        rw [NTree.descendOrAncestor_nil]
        congr 1; omega
    rw [hanc]
    unfold Ndtree.getNodeOrAncestor
    rw [hda]
    refine ⟨rfl, fun _ => ?_⟩
    show (a'.height : Int) = n.height + ((a'.height - n.height.toNat : Nat) : Int)
    omega
  unfold getNode
  dsimp only
  unfold getBlock
  by_cases hb : m.indexToBlockIndex n = a.blockIndex
  · rw [if_neg (by simpa using hb)]
    dsimp only
    cases ha with
    | missing hg hf hh =>
      rw [hf]
      have hg' : m.blocks.getBlock a.blockIndex = none := by
        rcases hg with h | h
        · exact absurd (hb.trans h) hne
        · exact h
      refine ⟨none, { a with mortonCode := nodeIndexToMorton n, hasBlock := false }, by simp, .missing (Or.inr hg') rfl hh, ?_, fun h => absurd rfl h⟩
      unfold NdtreeBlockHash.getNodeOrAncestor
      rw [hb, hg']
    | loaded n' hn' hb' hne' hm hl hs hh =>
      rw [hl]
      simp only [if_true]
      obtain ⟨s1, s2⟩ := start_spec n' n hn' hn hb' hb hm hs _ rfl
      exact main _ _ hb.symm rfl rfl ⟨s2.le, s2.node, s2.ex⟩ s1
  · rw [if_pos (by simpa using hb)]
    dsimp only
    rw [SpatialHash.hasBlock]
    cases hg : m.blocks.getBlock (m.indexToBlockIndex n) with
    | none =>
      simp only [Option.isSome_none, Bool.false_eq_true, if_false]
      refine ⟨none, _, rfl, .missing (Or.inr hg) rfl rfl, ?_, fun h => absurd rfl h⟩
      unfold NdtreeBlockHash.getNodeOrAncestor
      rw [hg]
    | some x =>
      simp only [Option.isSome_some, if_true]
      rw [stackPut_lt _ hH]
      simp only [Option.map_some, if_true, ne_eq, not_true_eq_false, if_false]
      refine main _ _ rfl rfl rfl ⟨Nat.le_refl _, ?_, ?_⟩ (by omega)
      · intro k hk1 hk2
        dsimp only
        rw [if_pos (by omega), mortonPath_of_le _ (by omega)]
      · intro k hk1 hk2
        dsimp only
        rw [mortonPath_of_le _ (by omega), deref_some hg, NTree.descend_nil']
        exact hw.root _ _ hg

/-! ### Allocation -/

/-- The data structure with the nodes of a path allocated. -/
def allocAt (m : NdtreeBlockHash 3 α) (b : Index 3) (p : List (Fin (2 ^ 3))) (v : α) : NdtreeBlockHash 3 α :=
  { m with blocks := m.blocks.modifyBlock b fun x => { x with root := x.root.allocPath v p } }

theorem modify_id {d : Nat} {β : Type} (l : SpatialHash d β) (b : Index d) (f : β → β) (h : ∀ e ∈ l, e.1 = b → f e.2 = e.2) : l.modifyBlock b f = l := by
  unfold SpatialHash.modifyBlock
  conv_rhs => rw [← List.map_id l]
  refine List.map_congr_left fun e he => ?_
  split
  · next hb => rw [h e he hb]; rfl
  · rfl

theorem modify_modify {d : Nat} {β : Type} (l : SpatialHash d β) (b : Index d) (f g k : β → β) (h : ∀ e ∈ l, e.1 = b → f (g e.2) = k e.2) :
    (l.modifyBlock b g).modifyBlock b f = l.modifyBlock b k := by
  unfold SpatialHash.modifyBlock
  rw [List.map_map]
  refine List.map_congr_left fun e he => ?_
  simp only [Function.comp_apply]
  by_cases hb : e.1 = b
  · simp only [hb, if_true]
    rw [h e he hb]
  · simp only [hb, if_false]

theorem mem_root {m : NdtreeBlockHash 3 α} (hw : m.Wf) {e : Index 3 × Ndtree 3 α} (he : e ∈ m.blocks) :
    m.blocks.getBlock e.1 = some e.2 := SpatialHash.getBlock_of_mem hw.nodup he

theorem allocAt_exists {m : NdtreeBlockHash 3 α} (hw : m.Wf) (b : Index 3) (p : List (Fin (2 ^ 3))) (v : α) (h : deref m (b, p) ≠ .nil) :
    allocAt m b p v = m := by
  unfold allocAt
  rw [modify_id]
  intro e he hb
  have := mem_root hw he
  rw [hb] at this
  rw [deref_some this] at h
  rw [NTree.allocPath_exists v p _ h]

theorem allocChild_allocAt {m : NdtreeBlockHash 3 α} (hw : m.Wf) (b : Index 3) (p : List (Fin (2 ^ 3))) (c : Fin (2 ^ 3)) (v : α) :
    allocChild (allocAt m b p v) (b, p) c v = allocAt m b (p ++ [c]) v := by
  unfold allocAt allocChild
  dsimp only
  congr 1
  rw [modify_modify]
  intro e he hb
  dsimp only
  rw [NTree.allocPath_snoc v c p _ (hw.root _ _ (mem_root hw he))]

theorem deref_allocAt {m : NdtreeBlockHash 3 α} (hw : m.Wf) (b : Index 3) (p q : List (Fin (2 ^ 3))) (v : α) (h : ∃ x, m.blocks.getBlock b = some x)
    (hq : q <+: p) : deref (allocAt m b p v) (b, q) ≠ .nil := by
  obtain ⟨x, hx⟩ := h
  have : (allocAt m b p v).blocks.getBlock b = some { x with root := x.root.allocPath v p } := by
    unfold allocAt
    rw [SpatialHash.getBlock_modify, if_pos rfl, hx]; rfl
  rw [deref_some this]
  dsimp only
  intro hc
  rw [descend_nil_iff_lookup, NTree.allocPath_lookup _ _ (hw.root _ _ hx), if_pos hq] at hc
  cases hc

theorem walkAlloc_spec {m : NdtreeBlockHash 3 α} (hw : m.Wf) (hH : m.maxHeight < 20) (v : α) (target : Nat) (b : Index 3)
    (hbl : ∃ x, m.blocks.getBlock b = some x) : ∀ (h : Nat) (a : NdtreeAccelerator), a.blockIndex = b →
    Stack (allocAt m b (mortonPath 3 a.mortonCode m.maxHeight h) v) a h → target ≤ h →
    ∃ a', walkAlloc v target h (allocAt m b (mortonPath 3 a.mortonCode m.maxHeight h) v) a =
        some (allocAt m b (mortonPath 3 a.mortonCode m.maxHeight target) v, (b, mortonPath 3 a.mortonCode m.maxHeight target), a') ∧
      Stack (allocAt m b (mortonPath 3 a.mortonCode m.maxHeight target) v) a' target ∧ a'.height = target ∧ a'.blockIndex = b ∧
      a'.mortonCode = a.mortonCode ∧ a'.hasBlock = a.hasBlock := by
  intro h
  induction h with
  | zero =>
    intro a hb hs ht
    obtain rfl : target = 0 := by omega
    have hnode := hs.node 0 (Nat.le_refl _) hs.le
    have hmh : (allocAt m b (mortonPath 3 a.mortonCode m.maxHeight 0) v).maxHeight = m.maxHeight := rfl
    rw [hmh, hb] at hnode
    refine ⟨{ a with height := 0 }, ?_, hs.withHeight 0, rfl, hb, rfl, rfl⟩
    rw [walkAlloc, stackAt_lt _ (by omega), hnode]
    simp
  | succ h ih =>
    intro a hb hs ht
    have hle : h + 1 ≤ m.maxHeight := hs.le
    have hnode := hs.node (h + 1) (Nat.le_refl _) hs.le
    have hmh : (allocAt m b (mortonPath 3 a.mortonCode m.maxHeight (h + 1)) v).maxHeight = m.maxHeight := rfl
    rw [hmh, hb] at hnode
    rw [walkAlloc, stackAt_lt _ (by omega), hnode]
    dsimp only
    by_cases htl : target < h + 1
    · rw [if_pos htl, stackPut_lt _ (by omega)]
      dsimp only
      have hstep := mortonPath_step a.mortonCode (show h < m.maxHeight by omega)
      rw [allocChild_allocAt hw, ← hstep]
      have := ih { a with nodeStack := fun j => if j = h then some (b, mortonPath 3 a.mortonCode m.maxHeight h) else a.nodeStack j } hb
        ⟨Nat.le_of_succ_le hle, ?_, ?_⟩ (by omega)
      · exact this
      · intro k hk1 hk2
        dsimp only
        by_cases hk : k = h
        · subst hk; rw [if_pos rfl, hb]; rfl
        · rw [if_neg hk]; exact hs.node k (by omega) hk2
      · intro k hk1 hk2
        dsimp only
        rw [hb]
        obtain ⟨q, hq, -⟩ := mortonPath_extend a.mortonCode hk1 hk2
        exact deref_allocAt hw b _ _ v hbl ⟨q, hq.symm⟩
    · rw [if_neg htl]
      obtain rfl : target = h + 1 := by omega
      exact ⟨{ a with height := h + 1 }, rfl, hs.withHeight _, rfl, hb, rfl, rfl⟩

theorem allocAt_direct {m : NdtreeBlockHash 3 α} (hw : m.Wf) (hH : m.maxHeight ≤ 20) (n : NdtreeIndex 3) (hn : NodeInHash m.maxHeight n) (v : α) :
    allocAt (m.getOrAllocateBlock (m.indexToBlockIndex n)) (m.indexToBlockIndex n)
      (mortonPath 3 (nodeIndexToMorton n) m.maxHeight n.height.toNat) v = m.getOrAllocateNodeWith n v := by
  have h1 := hw.allocateBlock (m.indexToBlockIndex n)
  have hp := nodePath_indexToCell m hH n hn
  generalize hm' : m.getOrAllocateBlock (m.indexToBlockIndex n) = m' at h1
  have hmh : m'.maxHeight = m.maxHeight := by rw [← hm']; rfl
  have e1 : m.getOrAllocateNodeWith n v = { m' with blocks := m'.blocks.modifyBlock (m.indexToBlockIndex n) (fun b => b.getOrAllocateNode (m.indexToCellIndex n) v) } := by rw [← hm']; rfl
  have e2 : m'.blocks.modifyBlock (m.indexToBlockIndex n) (fun x => { x with root := x.root.allocPath v (mortonPath 3 (nodeIndexToMorton n) m.maxHeight n.height.toNat) }) =
      m'.blocks.modifyBlock (m.indexToBlockIndex n) fun b => b.getOrAllocateNode (m.indexToCellIndex n) v := by
    unfold SpatialHash.modifyBlock
    refine List.map_congr_left fun e he => ?_
    split
    · have hh : e.2.maxHeight = m.maxHeight := (h1.height _ _ (mem_root h1 he)).trans hmh
      have e3 : e.2.getOrAllocateNode (m.indexToCellIndex n) v =
          { e.2 with root := e.2.root.allocPath v (nodePath e.2.maxHeight (m.indexToCellIndex n)) } := rfl
      have e5 : nodePath e.2.maxHeight (m.indexToCellIndex n) = mortonPath 3 (nodeIndexToMorton n) m.maxHeight n.height.toNat := by
        rw [hh]; exact hp
      dsimp only
      rw [e3, e5]
    · rfl
  rw [e1, ← e2]
  rfl

theorem getOrAllocateNode_spec {m : NdtreeBlockHash 3 α} (hw : m.Wf) (hH : m.maxHeight < 20) (a : NdtreeAccelerator) (ha : Inv m a) (n : NdtreeIndex 3)
    (hn : NodeInHash m.maxHeight n) (hne : m.indexToBlockIndex n ≠ noBlockIndex) (v : α) :
    ∃ x a', getOrAllocateNode m a n v = some (m.getOrAllocateNodeWith n v, x, a') ∧ Inv (m.getOrAllocateNodeWith n v) a' ∧
      deref (m.getOrAllocateNodeWith n v) x = (m.getOrAllocateNodeWith n v).getNode n ∧
      (m.getOrAllocateNodeWith n v).getNode n ≠ .nil := by
  have hn0 := hn.1; have hn1 := hn.2
  have hmw := hw.allocateWith (by omega) n hn v
  have h1 := hw.allocateBlock (m.indexToBlockIndex n)
  have hbl : ∃ x, (m.getOrAllocateBlock (m.indexToBlockIndex n)).blocks.getBlock (m.indexToBlockIndex n) = some x := by
    unfold NdtreeBlockHash.getOrAllocateBlock
    rw [SpatialHash.getBlock_getOrAllocate, if_pos rfl]; exact ⟨_, rfl⟩
  have main : ∀ (a₁ : NdtreeAccelerator) (L : Nat), a₁.blockIndex = m.indexToBlockIndex n → a₁.mortonCode = nodeIndexToMorton n → a₁.hasBlock = true →
      Stack (m.getOrAllocateBlock (m.indexToBlockIndex n)) a₁ L → n.height.toNat ≤ L →
      ∃ x a', walkAlloc v n.height.toNat L (m.getOrAllocateBlock (m.indexToBlockIndex n)) a₁ = some (m.getOrAllocateNodeWith n v, x, a') ∧
        Inv (m.getOrAllocateNodeWith n v) a' ∧
        deref (m.getOrAllocateNodeWith n v) x = (m.getOrAllocateNodeWith n v).getNode n ∧ (m.getOrAllocateNodeWith n v).getNode n ≠ .nil := by
    intro a₁ L hb1 hm1 hl1 hs1 ht1
    have hmh : (m.getOrAllocateBlock (m.indexToBlockIndex n)).maxHeight = m.maxHeight := rfl
    have hself : allocAt (m.getOrAllocateBlock (m.indexToBlockIndex n)) (m.indexToBlockIndex n) (mortonPath 3 a₁.mortonCode m.maxHeight L) v =
        m.getOrAllocateBlock (m.indexToBlockIndex n) := by
      refine allocAt_exists h1 _ _ _ ?_
      have := hs1.ex L (Nat.le_refl _) hs1.le
      rw [hb1] at this; exact this
    obtain ⟨a', e, hs', hh', hb', hm', hl'⟩ := walkAlloc_spec h1 hH v n.height.toNat _ hbl L a₁ hb1
      (by rw [hmh, hself]; exact hs1) ht1
    rw [hmh, hself, hm1, allocAt_direct hw (by omega) n hn] at e
    rw [hmh, hm1, allocAt_direct hw (by omega) n hn] at hs'
    have hmh2 : (m.getOrAllocateNodeWith n v).maxHeight = m.maxHeight := rfl
    have hex := hs'.ex n.height.toNat (Nat.le_refl _) hs'.le
    rw [hmh2, hb', hm', hm1] at hex
    have hder : deref (m.getOrAllocateNodeWith n v) (m.indexToBlockIndex n, mortonPath 3 (nodeIndexToMorton n) m.maxHeight n.height.toNat) =
        (m.getOrAllocateNodeWith n v).getNode n := by
      unfold NdtreeBlockHash.getNode
      have e1 : (m.getOrAllocateNodeWith n v).indexToBlockIndex n = m.indexToBlockIndex n := rfl
      have e2 : (m.getOrAllocateNodeWith n v).indexToCellIndex n = m.indexToCellIndex n := rfl
      rw [e1, e2]
      cases hg : (m.getOrAllocateNodeWith n v).blocks.getBlock (m.indexToBlockIndex n) with
      | none => unfold deref; dsimp only; rw [hg]
      | some x =>
        rw [deref_some hg]
        have hxh : x.maxHeight = m.maxHeight := hmw.height _ _ hg
        have e3 : x.getNode (m.indexToCellIndex n) = x.root.descend (nodePath x.maxHeight (m.indexToCellIndex n)) := rfl
        dsimp only
        rw [e3, hxh, nodePath_indexToCell m (by omega) n hn]
    refine ⟨_, a', e, .loaded n hn (by rw [hb']; rfl) (by rw [hb']; exact hne) (by rw [hm', hm1]) (by rw [hl', hl1]) (by rw [hh']; exact hs')
      (by omega), hder, ?_⟩
    rw [← hder]; exact hex
  unfold getOrAllocateNode
  dsimp only
  unfold getOrAllocateBlock
  by_cases hb : m.indexToBlockIndex n ≠ a.blockIndex ∨ a.hasBlock = false
  · rw [if_pos hb]
    dsimp only
    rw [stackPut_lt _ hH]
    simp only [Option.map_some, ne_eq, not_true_eq_false, if_false]
    obtain ⟨x, hx⟩ := hbl
    refine main _ _ rfl rfl rfl ⟨Nat.le_refl _, ?_, ?_⟩ (by omega)
    · intro k hk1 hk2
      have hk2' : k ≤ m.maxHeight := hk2
      have hmh : (m.getOrAllocateBlock (m.indexToBlockIndex n)).maxHeight = m.maxHeight := rfl
      dsimp only
      rw [if_pos (by omega), mortonPath_of_le _ (by rw [hmh]; omega)]
    · intro k hk1 hk2
      have hmh : (m.getOrAllocateBlock (m.indexToBlockIndex n)).maxHeight = m.maxHeight := rfl
      dsimp only
      rw [mortonPath_of_le _ (by rw [hmh]; omega), deref_some hx, NTree.descend_nil']
      exact h1.root _ _ hx
  · rw [if_neg hb]
    push Not at hb
    obtain ⟨hb, hl0⟩ := hb
    dsimp only
    cases ha with
    | missing hg hf hh => exact absurd hf hl0
    | loaded n' hn' hb' hne' hm hl hs hh =>
      obtain ⟨s1, s2⟩ := start_spec n' n hn' hn hb' hb hm hs _ rfl
      have hx : ∃ x, m.blocks.getBlock (m.indexToBlockIndex n) = some x := by
        have := hs.ex m.maxHeight hs.le (Nat.le_refl _)
        cases hg : m.blocks.getBlock (m.indexToBlockIndex n) with
        | none => unfold deref at this; dsimp only at this; rw [← hb, hg] at this; exact absurd rfl this
        | some x => exact ⟨x, rfl⟩
      obtain ⟨x, hx⟩ := hx
      have hsame : m.getOrAllocateBlock (m.indexToBlockIndex n) = m := by
        unfold NdtreeBlockHash.getOrAllocateBlock SpatialHash.getOrAllocateBlock
        rw [hx]
      have := main { a with mortonCode := nodeIndexToMorton n } _ hb.symm rfl hl (by rw [hsame]; exact s2) s1
      rw [hsame] at this
      exact this

end NdtreeAccelerator
end Wavemap
