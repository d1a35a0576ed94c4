import Verif.Lemmas.ChunkedSim
import Mathlib.Data.Fin.VecNotation
/-! # C14: the chunked octree container behaves like the plain one

The same sequence of operations is run on both containers. Every read of a node's data agrees. Existence does
not: inside a chunk the siblings of an allocated node are present too, holding default data. -/
namespace Wavemap
open ChunkNode (root ofPath ofPath_nil ofPath_snoc ofPath_ok ofPath_inj)

variable {α : Type} {d c : Nat}

/-- The operations both containers offer. -/
inductive TreeOp (d : Nat) (α : Type) where
  /-- `tree.getOrAllocateNode(n)` -/
  | alloc (n : NdtreeIndex d)
  /-- `tree.getOrAllocateNode(n).data() = a` -/
  | write (n : NdtreeIndex d) (a : α)
  /-- `if (auto node = tree.getNode(n)) node->eraseChild(i)` -/
  | erase (n : NdtreeIndex d) (i : Fin (2 ^ d))
  /-- `tree.clear()` -/
  | clear

/-- The operation on the plain container. -/
def TreeOp.runPlain (zero : α) (t : Ndtree d α) : TreeOp d α → Ndtree d α
  | .alloc n => t.getOrAllocateNode n zero
  | .write n a => (t.getOrAllocateNode n zero).setNodeData n a
  | .erase n i => { t with root := t.root.modifyAt (fun s => (s.eraseChild i).1) (nodePath t.maxHeight n) }
  | .clear => { t with root := .leaf zero }

/-- The operation on the chunked container. -/
def TreeOp.runChunked (zero : α) (c : Nat) (t : ChunkedNdtree α) : TreeOp d α → ChunkedNdtree α
  | .alloc n => (t.getOrAllocateNode zero d c n).1
  | .write n a =>
    let r := t.getOrAllocateNode zero d c n
    { r.1 with chunks := r.1.chunks.setData d r.2 a }
  | .erase n i =>
    match t.getNode d c n with
    | none => t
    | some r => { t with chunks := t.chunks.eraseChild zero d c r i }
  | .clear => t.clear zero

/-- The data a caller reads at `n`, or `none` when `getNode(n)` is null. -/
def ChunkedNdtree.read (zero : α) (d c : Nat) (t : ChunkedNdtree α) (n : NdtreeIndex d) : Option α :=
  (t.getNode d c n).map (t.chunks.data zero d)

/-- Same height, and every node address holds the same. -/
def SameTree (zero : α) (d c : Nat) (s : ChunkedNdtree α) (t : Ndtree d α) : Prop :=
  s.maxHeight = t.maxHeight ∧ t.root ≠ .nil ∧ Chunks.Sub zero d c s.chunks [] t.root

theorem allocPath_ne_nil {n : Nat} (dflt : α) (t : NTree n α) (ht : t ≠ .nil) (p : List (Fin n)) :
    NTree.allocPath dflt t p ≠ .nil := by
  apply (NTree.lookup_isSome (p := [])).1
  rw [NTree.allocPath_lookup dflt t ht]; simp

theorem modifyAt_setData_ne_nil {n : Nat} (a : α) (t : NTree n α) (ht : t ≠ .nil) (p : List (Fin n)) :
    NTree.modifyAt (fun u => u.setData a) t p ≠ .nil := by
  cases p <;> cases t <;> simp_all [NTree.modifyAt, NTree.setData]

theorem modifyAt_erase_ne_nil {n : Nat} (i : Fin n) (t : NTree n α) (ht : t ≠ .nil) (p : List (Fin n)) :
    NTree.modifyAt (fun u => (u.eraseChild i).1) t p ≠ .nil := by
  cases p <;> cases t <;> simp_all [NTree.modifyAt, NTree.eraseChild]

theorem SameTree.step (hd : 0 < d) (hc : 0 < c) (hc' : c ≤ 64 / d - 1) {zero : α} {s : ChunkedNdtree α}
    {t : Ndtree d α} (h : SameTree zero d c s t) (op : TreeOp d α) :
    SameTree zero d c (op.runChunked zero c s) (op.runPlain zero t) := by
  obtain ⟨h1, h2, h3⟩ := h
  cases op with
  | alloc n =>
    refine ⟨h1, allocPath_ne_nil _ _ h2 _, ?_⟩
    have := h3.alloc hd hc hc' h2 (nodePath t.maxHeight n)
    simp only [TreeOp.runChunked, ChunkedNdtree.getOrAllocateNode, TreeOp.runPlain, Ndtree.getOrAllocateNode]
    rw [h1]; exact this
  | write n a =>
    refine ⟨h1, modifyAt_setData_ne_nil _ _ (allocPath_ne_nil _ _ h2 _) _, ?_⟩
    have h4 := h3.alloc hd hc hc' h2 (nodePath t.maxHeight n)
    have hroot : s.chunks.live root = true := by
      have := h3.live (p := []) (by simpa using h2); rwa [ofPath_nil] at this
    have h5 := (Chunks.allocPath_effect hd hc hc' zero s.chunks hroot (nodePath t.maxHeight n)).1
    have h6 := h4.setData hd hc hc' (nodePath t.maxHeight n) (by
      apply NTree.lookup_isSome.1
      rw [NTree.allocPath_lookup zero _ h2]; simp) a
    simp only [TreeOp.runChunked, ChunkedNdtree.getOrAllocateNode, TreeOp.runPlain, Ndtree.getOrAllocateNode,
      Ndtree.setNodeData]
    rw [h1, h5]; exact h6
  | erase n i =>
    have h4 := h3.eraseChild hd hc hc' (nodePath t.maxHeight n) i
    refine ⟨?_, modifyAt_erase_ne_nil _ _ h2 _, ?_⟩
    · simp only [TreeOp.runChunked, TreeOp.runPlain]
      split <;> exact h1
    · simp only [TreeOp.runChunked, TreeOp.runPlain]
      have key : s.chunks.eraseChild zero d c (ofPath d c (nodePath t.maxHeight n)) i = s.chunks ∨
          s.getNode d c n = some (ofPath d c (nodePath t.maxHeight n)) := by
        unfold ChunkedNdtree.getNode
        rw [h1]
        generalize nodePath t.maxHeight n = p
        induction p using List.reverseRecOn with
        | nil => right; rfl
        | append_singleton p j _ =>
          rw [h3.descend_root p j]
          by_cases hx : t.root.arr p = true ∧
              ((ofPath d c (p ++ [j])).depth = 0 → (t.root.descend (p ++ [j])).isNil = false)
          · right; rw [if_pos hx]
          · left
            unfold Chunks.eraseChild
            rw [Chunks.bit_slot zero]
            have hb := h3.bit (p ++ [j])
            rw [List.nil_append] at hb
            rw [hb]
            have : t.root.arr (p ++ [j]) = false := by
              cases ha : t.root.arr (p ++ [j]) with
              | false => rfl
              | true =>
                exfalso; apply hx
                have := NTree.lookup_isSome.1 (NTree.arr_lookup ha)
                exact ⟨NTree.child_arr this, fun _ => NTree.isNil_false.2 this⟩
            simp [this]
      have key2 : ∀ r, s.getNode d c n = some r → r = ofPath d c (nodePath t.maxHeight n) := by
        unfold ChunkedNdtree.getNode
        rw [h1]
        generalize nodePath t.maxHeight n = p
        induction p using List.reverseRecOn with
        | nil => intro r hr; simp [Chunks.descend] at hr; exact hr.symm
        | append_singleton p j _ =>
          intro r hr
          rw [h3.descend_root p j] at hr
          split at hr
          · exact (Option.some.inj hr).symm
          · simp at hr
      cases hg : s.getNode d c n with
      | none =>
        rcases key with k | k
        · rw [k] at h4; exact h4
        · rw [hg] at k; simp at k
      | some r => rw [key2 r hg]; exact h4
  | clear => exact ⟨h1, by simp [TreeOp.runPlain], Chunks.fresh_sub hc zero⟩

theorem SameTree.run (hd : 0 < d) (hc : 0 < c) (hc' : c ≤ 64 / d - 1) {zero : α} (ops : List (TreeOp d α))
    {s : ChunkedNdtree α} {t : Ndtree d α} (h : SameTree zero d c s t) :
    SameTree zero d c (ops.foldl (TreeOp.runChunked zero c) s) (ops.foldl (TreeOp.runPlain zero) t) := by
  induction ops generalizing s t with
  | nil => exact h
  | cons op ops ih => exact ih (h.step hd hc hc' op)

theorem SameTree.create (hc : 0 < c) (zero : α) {H : Nat} (hH : c ∣ H) :
    SameTree zero d c (ChunkedNdtree.create zero c H) (Ndtree.create H zero) := by
  refine ⟨?_, by simp [Ndtree.create], Chunks.fresh_sub hc zero⟩
  obtain ⟨k, rfl⟩ := hH
  simp [ChunkedNdtree.create, Ndtree.create, divRoundUp, Nat.mul_div_cancel_left k hc]

theorem SameTree.read {zero : α} {s : ChunkedNdtree α} {t : Ndtree d α} (h : SameTree zero d c s t)
    (n : NdtreeIndex d) :
    (s.read zero d c n).getD zero = ((t.getNode n).data?).getD zero ∧
    ((t.getNode n).data?.isSome = true → (s.read zero d c n) = (t.getNode n).data?) := by
  obtain ⟨h1, h2, h3⟩ := h
  unfold ChunkedNdtree.read ChunkedNdtree.getNode Ndtree.getNode
  rw [h1]
  generalize nodePath t.maxHeight n = p
  have hdat := h3.data p
  rw [List.nil_append] at hdat
  induction p using List.reverseRecOn with
  | nil =>
    rw [ofPath_nil] at hdat
    have : s.chunks.descend d c root ([] : List (Fin (2 ^ d))) = some root := rfl
    have e : t.root.descend [] = t.root := by simp
    simp only [this, Option.map_some, Chunks.data_slot, e, Option.getD_some]
    rw [hdat]
    cases ht : t.root <;> simp_all
  | append_singleton p i _ =>
    rw [h3.descend_root p i]
    unfold NTree.lookup at hdat
    split
    · simp only [Option.map_some, Chunks.data_slot, Option.getD_some]
      rw [hdat]
      refine ⟨rfl, fun hs => ?_⟩
      cases hx : (t.root.descend (p ++ [i])).data? <;> simp_all
    · rename_i hn
      have : (t.root.descend (p ++ [i])).data? = none := by
        cases hx : (t.root.descend (p ++ [i])).data? with
        | none => rfl
        | some a =>
          exfalso; apply hn
          have hs := (NTree.lookup_isSome (t := t.root) (p := p ++ [i])).1 (by unfold NTree.lookup; rw [hx]; rfl)
          exact ⟨NTree.child_arr hs, fun _ => NTree.isNil_false.2 hs⟩
      simp [this]

/-- **C14 (values).** After any sequence of operations, a read that treats a missing node as default data returns
the same on both containers, and every node of the plain container is found in the chunked one with the same
data. What fails is the converse: see `C14_exists_iff` and `C14_existence_fails`. -/
theorem C14_values_agree_partial (hd : 1 ≤ d) (hc : 0 < c) (hc' : c ≤ 64 / d - 1) (zero : α) {H : Nat}
    (hH : c ∣ H) (ops : List (TreeOp d α)) (n : NdtreeIndex d) :
    let s := ops.foldl (TreeOp.runChunked zero c) (ChunkedNdtree.create zero c H)
    let t := ops.foldl (TreeOp.runPlain zero) (Ndtree.create H zero)
    (s.read zero d c n).getD zero = (t.getNode n).data?.getD zero ∧
    ((t.getNode n).data?.isSome = true → s.read zero d c n = (t.getNode n).data?) :=
  (SameTree.run hd hc hc' ops (SameTree.create hc zero hH)).read n

/-- A height-2 octree in one chunk of height 2: write a leaf, write its parent, erase a child of the root. -/
example :
    let ops : List (TreeOp 3 Nat) := [.write ⟨0, ![1, 2, 3]⟩ 7, .write ⟨1, ![0, 1, 1]⟩ 4, .write ⟨0, ![0, 0, 0]⟩ 3,
      .erase ⟨2, ![0, 0, 0]⟩ 0]
    let s := ops.foldl (TreeOp.runChunked 0 2) (ChunkedNdtree.create 0 2 2)
    s.read 0 3 2 ⟨0, ![1, 2, 3]⟩ = some 7 ∧ s.read 0 3 2 ⟨1, ![0, 1, 1]⟩ = some 4 ∧
    s.read 0 3 2 ⟨0, ![0, 0, 0]⟩ = none := by
  decide +kernel

/-! ## Which nodes exist -/

/-- **C14 (existence).** A node below the root exists in the chunked container exactly when it exists in the plain
one, or when its height is not at a chunk boundary and its parent in the plain container has an array of
children. -/
theorem C14_exists_iff (hd : 1 ≤ d ∧ d ≤ 3) (hc : 0 < c) (hc' : c ≤ 64 / d - 1) (zero : α) {H : Nat}
    (hH : c ∣ H) (hH' : H ≤ maxTreeHeight d) (ops : List (TreeOp d α)) (n : NdtreeIndex d)
    (hn : NodeInTree H n) (hlt : n.height < H) :
    let s := ops.foldl (TreeOp.runChunked zero c) (ChunkedNdtree.create zero c H)
    let t := ops.foldl (TreeOp.runPlain zero) (Ndtree.create H zero)
    (s.getNode d c n).isSome = true ↔
      (t.getNode n).isNil = false ∨
        (¬ (c : Int) ∣ (H - n.height) ∧ (t.getNode n.computeParentIndex).hasChildrenArray = true) := by
  intro s t
  have hst : SameTree zero d c s t := SameTree.run hd.1 hc hc' ops (SameTree.create hc zero hH)
  have hmax : t.maxHeight = H := by
    have : ∀ (ops : List (TreeOp d α)) (t : Ndtree d α), (ops.foldl (TreeOp.runPlain zero) t).maxHeight = t.maxHeight := by
      intro ops
      induction ops with
      | nil => intro t; rfl
      | cons op ops ih => intro t; rw [List.foldl_cons, ih]; cases op <;> rfl
    exact this ops _
  obtain ⟨h1, h2, h3⟩ := hst
  unfold ChunkedNdtree.getNode Ndtree.getNode
  rw [h1, hmax]
  have hlen := nodePath_length hn
  rw [nodePath_parent hd hH' hn hlt] at hlen ⊢
  rw [h3.descend_root, ChunkNode.ofPath_depth hc]
  have hb : (c : Int) ∣ (H - n.height) ↔ (nodePath H n.computeParentIndex ++ [relFin n]).length % c = 0 := by
    rw [hlen, ← Nat.dvd_iff_mod_eq_zero, ← Int.natCast_dvd_natCast]
    have e : ((H - n.height.toNat : Nat) : Int) = H - n.height := by have := hn.1; omega
    rw [e]
  rw [hb]
  generalize nodePath H n.computeParentIndex = p
  generalize relFin n = i
  have e : t.root.arr p = (t.root.descend p).hasChildrenArray := rfl
  rw [← e]
  by_cases hnil : (t.root.descend (p ++ [i])).isNil = false
  · simp [hnil, NTree.child_arr (NTree.isNil_false.1 hnil)]
  · by_cases ha : t.root.arr p = true
    · by_cases hm : (p ++ [i]).length % c = 0
      · simp only [hnil, ha, hm]; simp
      · simp only [ha, hm]; simp
    · simp [hnil, ha]

/-- The root always exists in both containers. -/
theorem C14_root_exists (zero : α) (H : Nat) (ops : List (TreeOp d α)) :
    let s := ops.foldl (TreeOp.runChunked zero c) (ChunkedNdtree.create zero c H)
    (s.getNode d c (rootIndex d s.maxHeight)).isSome = true := by
  intro s
  unfold ChunkedNdtree.getNode
  rw [nodePath_root]; rfl

/-- With chunks of height one the two containers agree on existence too. -/
theorem C14_exists_height_one (hd : 1 ≤ d ∧ d ≤ 3) (zero : α) {H : Nat} (hH' : H ≤ maxTreeHeight d)
    (ops : List (TreeOp d α)) (n : NdtreeIndex d) (hn : NodeInTree H n) (hlt : n.height < H) :
    let s := ops.foldl (TreeOp.runChunked zero 1) (ChunkedNdtree.create zero 1 H)
    let t := ops.foldl (TreeOp.runPlain zero) (Ndtree.create H zero)
    s.read zero d 1 n = (t.getNode n).data? := by
  intro s t
  have hc' : 1 ≤ 64 / d - 1 := by
    have : d = 1 ∨ d = 2 ∨ d = 3 := by omega
    rcases this with rfl | rfl | rfl <;> decide
  have h1 := C14_exists_iff hd (by decide : 0 < 1) hc' zero (one_dvd H) hH' ops n hn hlt
  have h2 := (C14_values_agree_partial hd.1 (by decide : 0 < 1) hc' zero (one_dvd H) ops n).2
  simp only [Nat.cast_one, isUnit_one, IsUnit.dvd, not_true_eq_false, false_and, or_false] at h1
  cases hx : (t.getNode n).data? with
  | some a => rw [h2 (by show (t.getNode n).data?.isSome = true; rw [hx]; rfl)]; exact hx
  | none =>
    have hnil : (t.getNode n).isNil = true := by cases hy : t.getNode n <;> simp_all [NTree.isNil]
    have : ¬ ((s.getNode d 1 n).isSome = true) := by
      intro hs
      have := h1.1 hs
      rw [show NTree.isNil (Ndtree.getNode t n) = true from hnil] at this
      exact absurd this (by decide)
    unfold ChunkedNdtree.read
    cases hg : s.getNode d 1 n with
    | none => rfl
    | some r => rw [hg] at this; simp at this

/-- **C14 as listed fails.** Allocating one leaf of a chunk makes its sibling exist in the chunked container but
not in the plain one, so code that writes only to nodes `getNode` finds behaves differently. -/
theorem C14_existence_fails :
    let ops : List (TreeOp 3 Nat) := [.alloc ⟨1, ![0, 0, 0]⟩]
    let s := ops.foldl (TreeOp.runChunked 0 3) (ChunkedNdtree.create 0 3 3)
    let t := ops.foldl (TreeOp.runPlain 0) (Ndtree.create 3 0)
    s.read 0 3 3 ⟨1, ![1, 0, 0]⟩ = some 0 ∧ (t.getNode ⟨1, ![1, 0, 0]⟩).data? = none := by
  decide +kernel

/-! ## Deepest existing node -/

theorem Chunks.Sub.descendOrAncestor {zero : α} {s : Chunks α} (q : List (Fin (2 ^ d))) :
    ∀ {p t}, t ≠ NTree.nil → Chunks.Sub zero d c s p t →
    let r := s.descendOrAncestor d c (ofPath d c p) q
    let r' := t.descendOrAncestor q
    (r.2 = r'.2 ∧ s.data zero d r.1 = r'.1.data?.getD zero) ∨
      (r.2 + 1 = r'.2 ∧ s.data zero d r.1 = zero ∧ r'.1.hasChildrenArray = true) := by
  induction q with
  | nil =>
    intro p t ht h
    left
    refine ⟨by cases t <;> rfl, ?_⟩
    have := h.data []
    rw [List.append_nil] at this
    simp only [Chunks.descendOrAncestor, Chunks.data_slot]
    rw [this]
    cases t <;> simp [NTree.descendOrAncestor]
  | cons i q ih =>
    intro p t ht h
    have hg := h.getChild i
    simp only [Chunks.descendOrAncestor]
    by_cases hnil : t.child i = NTree.nil
    · have e : t.descendOrAncestor (i :: q) = (t, q.length + 1) := by
        simp [NTree.descendOrAncestor, hnil]
      rw [e, hg]
      split
      · left
        refine ⟨rfl, ?_⟩
        have := h.data []
        rw [List.append_nil] at this
        simp only [Chunks.data_slot]
        rw [this]; simp
      · rename_i r hr
        right
        split at hr
        · rename_i hx
          have hr' := Option.some.inj hr
          subst hr'
          have hb := (h.child i).bit
          have hdat := (h.child i).data []
          rw [List.append_nil, hnil] at hdat
          have hstop : s.descendOrAncestor d c (ofPath d c (p ++ [i])) q = (ofPath d c (p ++ [i]), q.length) := by
            cases q with
            | nil => rfl
            | cons j q =>
              have := (h.child i).getChild j
              rw [hnil] at this
              simp only [Chunks.descendOrAncestor]
              rw [this]
              simp [NTree.hasChildrenArray]
          rw [hstop]
          refine ⟨rfl, ?_, hx.1⟩
          simp only [Chunks.data_slot]
          rw [hdat]; simp
        · simp at hr
    · have e : t.descendOrAncestor (i :: q) = (t.child i).descendOrAncestor q := by
        cases hx : t.child i <;> simp_all [NTree.descendOrAncestor]
      have ha : t.hasChildrenArray = true := by cases t <;> simp_all [NTree.hasChildrenArray]
      rw [e, hg, if_pos ⟨ha, fun _ => NTree.isNil_false.2 hnil⟩]
      exact ih hnil (h.child i)

/-- **C14 (nearest existing ancestor).** `getNodeOrAncestor` returns the same height and data on both containers,
or the chunked one returns a node one level deeper that holds default data. -/
theorem C14_ancestor (hd : 1 ≤ d) (hc : 0 < c) (hc' : c ≤ 64 / d - 1) (zero : α) {H : Nat}
    (hH : c ∣ H) (ops : List (TreeOp d α)) (n : NdtreeIndex d) :
    let s := ops.foldl (TreeOp.runChunked zero c) (ChunkedNdtree.create zero c H)
    let t := ops.foldl (TreeOp.runPlain zero) (Ndtree.create H zero)
    let r := s.getNodeOrAncestor d c n
    let r' := t.getNodeOrAncestor n
    (r.2 = r'.2 ∧ s.chunks.data zero d r.1 = r'.1.data?.getD zero) ∨
      (r.2 = r'.2 - 1 ∧ s.chunks.data zero d r.1 = zero ∧ r'.1.hasChildrenArray = true) := by
  intro s t
  obtain ⟨h1, h2, h3⟩ := SameTree.run hd hc hc' ops (SameTree.create hc zero hH)
  have := h3.descendOrAncestor (nodePath t.maxHeight n) h2
  simp only [ChunkedNdtree.getNodeOrAncestor, Ndtree.getNodeOrAncestor]
  rw [show s.maxHeight = t.maxHeight from h1]
  rcases this with ⟨a, b⟩ | ⟨a, b, e⟩
  · left; exact ⟨by rw [ofPath_nil] at a; rw [a], b⟩
  · right
    rw [ofPath_nil] at a
    exact ⟨by rw [← a]; push_cast; ring, b, e⟩

/-- Both outcomes occur: an exact agreement and a deeper default node. -/
example :
    let ops : List (TreeOp 3 Nat) := [.write ⟨1, ![0, 0, 0]⟩ 5]
    let s := ops.foldl (TreeOp.runChunked 0 3) (ChunkedNdtree.create 0 3 3)
    let t := ops.foldl (TreeOp.runPlain 0) (Ndtree.create 3 0)
    ((s.getNodeOrAncestor 3 3 ⟨0, ![1, 1, 1]⟩).2 = 1 ∧ (t.getNodeOrAncestor ⟨0, ![1, 1, 1]⟩).2 = 1) ∧
    ((s.getNodeOrAncestor 3 3 ⟨0, ![2, 0, 0]⟩).2 = 1 ∧ (t.getNodeOrAncestor ⟨0, ![2, 0, 0]⟩).2 = 2) := by
  decide +kernel

/-! ## Array accesses stay in bounds -/

/-- **C14 (memory safety).** Every node address reached along a path of child indices from the root lies within the
arrays of its chunk: the data and flag index is below the number of inner nodes, and the slot of any child in the
next chunk is below the number of chunk children. Distinct nodes have distinct addresses. -/
theorem C14_addresses_in_bounds (hd : 1 ≤ d ∧ d ≤ 3) (hc : 0 < c) (hc' : c ≤ 64 / d - 1)
    (p q : List (Fin (2 ^ d))) (i : Fin (2 ^ d)) :
    let r := p.foldl (fun r i => (Chunks.getOrAllocateChild (0 : Nat) d c (Chunks.fresh 0) r i).2) root
    let r' := q.foldl (fun r i => (Chunks.getOrAllocateChild (0 : Nat) d c (Chunks.fresh 0) r i).2) root
    r.index d < Chunk.numInnerNodes d c ∧
    (r.depth + 1 = c → r.childDist d i < Chunk.numChildren d c) ∧
    (r.chunk = r'.chunk → r.index d = r'.index d → p = q) := by
  have hof : ∀ p : List (Fin (2 ^ d)),
      p.foldl (fun r i => (Chunks.getOrAllocateChild (0 : Nat) d c (Chunks.fresh 0) r i).2) root = ofPath d c p := by
    intro p
    induction p using List.reverseRecOn with
    | nil => rfl
    | append_singleton p i ih => rw [List.foldl_append, ih, ofPath_snoc]; simp [Chunks.alloc_snd]
  intro r r'
  have e1 : r = ofPath d c p := hof p
  have e2 : r' = ofPath d c q := hof q
  rw [e1, e2]
  have ok := ofPath_ok (d := d) hc p
  have ok' := ofPath_ok (d := d) hc q
  refine ⟨?_, ?_, ?_⟩
  · rw [ChunkNode.index_eq hd.1 hc' ok, Chunk.numInnerNodes, C09_total_nodes d c hd.1]
    have h1 := ChunkNode.perfectTreeNodes_mono d ok.1
    have h2 := ok.2
    rw [Nat.pow_mul] at h2
    omega
  · intro h1
    rw [childDist_eq, Chunk.numChildren, numLeafNodes, exp2_eq, Nat.add_sub_cancel]
    have h2 := ok.2
    have h3 := i.isLt
    have h4 : d * c = d * (ofPath d c p).depth + d := by rw [← Nat.mul_succ]; exact congrArg _ h1.symm
    rw [h4, Nat.pow_add]
    calc (ofPath d c p).dist * 2 ^ d + i.val < (ofPath d c p).dist * 2 ^ d + 2 ^ d := by omega
      _ = ((ofPath d c p).dist + 1) * 2 ^ d := by ring
      _ ≤ 2 ^ (d * (ofPath d c p).depth) * 2 ^ d := Nat.mul_le_mul_right _ h2
  · intro h1 h2
    exact ofPath_inj (ChunkNode.index_inj hd.1 hc' ok ok' h1 h2)

/-- The octree chunks in use (three dimensions, height three) meet the hypotheses. -/
example : (1 ≤ 3 ∧ 3 ≤ 3) ∧ 0 < 3 ∧ 3 ≤ 64 / 3 - 1 ∧ 3 ∣ 9 ∧ Chunk.numInnerNodes 3 3 = 73 ∧
    Chunk.numChildren 3 3 = 512 := by decide

/-- The constructor rounds the requested height up to the next multiple of the chunk height. -/
theorem C14_height_rounded (hc : 0 < c) (zero : α) (H : Nat) :
    c ∣ (ChunkedNdtree.create zero c H).maxHeight ∧ H ≤ (ChunkedNdtree.create zero c H).maxHeight ∧
    (ChunkedNdtree.create zero c H).maxHeight < H + c := by
  simp only [ChunkedNdtree.create, divRoundUp]
  refine ⟨Dvd.intro _ rfl, ?_⟩
  have h1 := Nat.div_add_mod H c
  have h2 := Nat.mod_lt H hc
  split
  · rw [Nat.mul_add]; omega
  · rw [Nat.add_zero]; omega

example : (ChunkedNdtree.create (0 : Nat) 3 7).maxHeight = 9 := by decide

end Wavemap
