import Verif.Model.NdtreeBlockHash
import Verif.Lemmas.SpatialHash
import Verif.Props.Octree
import Verif.Lemmas.WaveletLeaves
/-!
# C61: hashed octrees

Specification: a partial table over all node indices `{height, position}` with a height between 0 and the tree height `H`. The
blocks are the nodes of height `H`. `IsAncestorOrSelf k n` says that `k` is `n` or `n.computeParentIndex(k.height)`.
-/
namespace Wavemap
open NdtreeIndex
variable {d : Nat} {α : Type}

/-- The operations of the container. -/
inductive NdtreeHashOp (d : Nat) (α : Type) where
  /-- `getOrAllocateBlock(b)` -/
  | allocateBlock (b : Index d)
  /-- `getOrAllocateNode(n)` -/
  | allocate (n : NdtreeIndex d)
  /-- `getOrAllocateValue(n) = v` -/
  | set (n : NdtreeIndex d) (v : α)
  /-- `eraseBlock(b)` -/
  | eraseBlock (b : Index d)
  /-- `clear()` -/
  | clear

/-- A node of a hashed octree of height `H`. -/
def NodeInHash (H : Nat) (n : NdtreeIndex d) : Prop := 0 ≤ n.height ∧ n.height ≤ H

namespace NdtreeHashOp

/-- The operation on the modelled container. -/
def run (m : NdtreeBlockHash d α) : NdtreeHashOp d α → NdtreeBlockHash d α
  | allocateBlock b => m.getOrAllocateBlock b
  | allocate n => m.getOrAllocateNode n
  | set n v => m.setValue n v
  | eraseBlock b => m.eraseBlock b
  | clear => m.clear

/-- The operation on a plain table. -/
def spec (H : Nat) (dv : α) (t : NdtreeIndex d → Option α) : NdtreeHashOp d α → NdtreeIndex d → Option α
  | allocateBlock b => fun k => if k = ⟨H, b⟩ then some ((t k).getD dv) else t k
  | allocate n => fun k => if IsAncestorOrSelf k n then some ((t k).getD dv) else t k
  | set n v => fun k => if k = n then some v else if IsAncestorOrSelf k n then some ((t k).getD dv) else t k
  | eraseBlock b => fun k => if IsAncestorOrSelf ⟨H, b⟩ k then none else t k
  | clear => fun _ => none

/-- Operations are issued on nodes with an admissible height. -/
def Valid (H : Nat) : NdtreeHashOp d α → Prop
  | allocate n => NodeInHash H n
  | set n _ => NodeInHash H n
  | _ => True

end NdtreeHashOp

/-! ## Proofs -/

theorem emod_pow_ediv_pow (x : Int) (a b : Nat) : (x % 2 ^ (a + b)) / 2 ^ a = (x / 2 ^ a) % 2 ^ b := by
  have ha := two_pow_pos' a
  have hA : (2 : Int) ^ a ≠ 0 := Int.ne_of_gt ha
  rw [Int.emod_def, Int.emod_def, Int.pow_add, Int.mul_assoc, Int.sub_mul_ediv_left _ _ hA,
    Int.ediv_ediv_of_nonneg (Int.le_of_lt ha)]

namespace NdtreeBlockHash

theorem blk_eq (m : NdtreeBlockHash d α) {n : NdtreeIndex d} (i : Fin d) :
    m.indexToBlockIndex n i = n.position i / 2 ^ ((m.maxHeight : Int) - n.height).toNat := divExp2Floor_eq _ _

theorem cell_eq (m : NdtreeBlockHash d α) (hH : m.maxHeight ≤ 30) {n : NdtreeIndex d} (hn : NodeInHash m.maxHeight n) (i : Fin d) :
    (m.indexToCellIndex n).position i = n.position i % 2 ^ ((m.maxHeight : Int) - n.height).toNat :=
  divExp2FloorRemainder_eq _ _ (by have := hn.1; omega)

theorem cell_inTree (m : NdtreeBlockHash d α) (hH : m.maxHeight ≤ 30) {n : NdtreeIndex d} (hn : NodeInHash m.maxHeight n) :
    NodeInTree m.maxHeight (m.indexToCellIndex n) := by
  refine ⟨hn.1, hn.2, fun i => ?_⟩
  rw [m.cell_eq hH hn]
  have h0 := hn.1; have h1 := hn.2
  have : m.maxHeight - (m.indexToCellIndex n).height.toNat = ((m.maxHeight : Int) - n.height).toNat := by
    show m.maxHeight - n.height.toNat = _; omega
  rw [this]
  exact ⟨Int.emod_nonneg _ (Int.ne_of_gt (two_pow_pos' _)), Int.emod_lt_of_pos _ (two_pow_pos' _)⟩

/-- The ancestor relation, block by block. -/
theorem ancestor_iff (m : NdtreeBlockHash d α) (hH : m.maxHeight ≤ 30) {k n : NdtreeIndex d} (hk : NodeInHash m.maxHeight k)
    (hn : NodeInHash m.maxHeight n) : IsAncestorOrSelf k n ↔
      m.indexToBlockIndex k = m.indexToBlockIndex n ∧ IsAncestorOrSelf (m.indexToCellIndex k) (m.indexToCellIndex n) := by
  have hk0 := hk.1; have hk1 := hk.2; have hn0 := hn.1; have hn1 := hn.2
  by_cases hle : n.height ≤ k.height
  · obtain ⟨a, ha⟩ : ∃ a : Nat, k.height - n.height = a := ⟨(k.height - n.height).toNat, by omega⟩
    obtain ⟨b, hb⟩ : ∃ b : Nat, (m.maxHeight : Int) - k.height = b := ⟨((m.maxHeight : Int) - k.height).toNat, by omega⟩
    have hab : ((m.maxHeight : Int) - n.height).toNat = a + b := by omega
    have hb' : ((m.maxHeight : Int) - k.height).toNat = b := by omega
    have ha' : (k.height - n.height).toNat = a := by omega
    have e1 : IsAncestorOrSelf k n ↔ ∀ i, k.position i = n.position i / 2 ^ a := by
      unfold IsAncestorOrSelf
      simp only [hle, true_and, computeParentIndexAt, ha', divExp2Floor_eq]
      constructor
      · intro h i; rw [← h]
      · intro h; ext i
        · rfl
        · exact (h i).symm
    have e2 : IsAncestorOrSelf (m.indexToCellIndex k) (m.indexToCellIndex n) ↔
        ∀ i, k.position i % 2 ^ b = (n.position i % 2 ^ (a + b)) / 2 ^ a := by
      unfold IsAncestorOrSelf
      have hle' : (m.indexToCellIndex n).height ≤ (m.indexToCellIndex k).height := hle
      have hd' : (((m.indexToCellIndex k).height) - (m.indexToCellIndex n).height).toNat = a := ha'
      simp only [hle', true_and, computeParentIndexAt, hd', divExp2Floor_eq]
      constructor
      · intro h i
        have := congrArg (fun x => NdtreeIndex.position x i) h
        simp only [m.cell_eq hH hk, m.cell_eq hH hn, hab, hb'] at this
        exact this.symm
      · intro h; ext i
        · rfl
        · simp only [m.cell_eq hH hk, m.cell_eq hH hn, hab, hb']; exact (h i).symm
    have e3 : m.indexToBlockIndex k = m.indexToBlockIndex n ↔ ∀ i, k.position i / 2 ^ b = n.position i / 2 ^ a / 2 ^ b := by
      rw [funext_iff]
      refine forall_congr' fun i => ?_
      rw [m.blk_eq, m.blk_eq, hab, hb', Int.pow_add, Int.ediv_ediv_of_nonneg (Int.le_of_lt (two_pow_pos' a))]
    rw [e1, e2, e3]
    simp only [emod_pow_ediv_pow]
    constructor
    · intro h; exact ⟨fun i => by rw [h i], fun i => by rw [h i]⟩
    · rintro ⟨h1, h2⟩ i
      have t1 := Int.emod_add_mul_ediv (k.position i) (2 ^ b)
      have t2 := Int.emod_add_mul_ediv (n.position i / 2 ^ a) (2 ^ b)
      rw [h1 i, h2 i] at t1
      omega
  · constructor
    · intro h; exact absurd h.1 hle
    · intro h; exact absurd h.2.1 hle

theorem eq_iff (m : NdtreeBlockHash d α) (hH : m.maxHeight ≤ 30) {k n : NdtreeIndex d} (hk : NodeInHash m.maxHeight k)
    (hn : NodeInHash m.maxHeight n) : k = n ↔
      m.indexToBlockIndex k = m.indexToBlockIndex n ∧ m.indexToCellIndex k = m.indexToCellIndex n := by
  constructor
  · rintro rfl; exact ⟨rfl, rfl⟩
  · rintro ⟨h1, h2⟩
    have hh : k.height = n.height := by
      have : (m.indexToCellIndex k).height = (m.indexToCellIndex n).height := by rw [h2]
      exact this
    ext i
    · exact hh
    · have a1 := congrFun h1 i
      have a2 := congrArg (fun x => NdtreeIndex.position x i) h2
      simp only [m.cell_eq hH hk, m.cell_eq hH hn] at a2
      rw [m.blk_eq, m.blk_eq] at a1
      rw [hh] at a1 a2
      have t1 := Int.emod_add_mul_ediv (k.position i) (2 ^ ((m.maxHeight : Int) - n.height).toNat)
      have t2 := Int.emod_add_mul_ediv (n.position i) (2 ^ ((m.maxHeight : Int) - n.height).toNat)
      rw [a1, a2] at t1
      omega

/-- Invariant of the container. -/
structure Wf (m : NdtreeBlockHash d α) : Prop where
  nodup : m.blocks.keys.Nodup
  height : ∀ k b, m.blocks.getBlock k = some b → b.maxHeight = m.maxHeight
  root : ∀ k b, m.blocks.getBlock k = some b → b.root ≠ .nil
  depth : ∀ k b, m.blocks.getBlock k = some b → ∀ p : List (Fin (2 ^ d)), m.maxHeight < p.length → b.root.descend p = .nil

theorem create_wf (H : Nat) (dv : α) : (create H dv : NdtreeBlockHash d α).Wf :=
  ⟨List.nodup_nil, (by intro k b h; cases h), (by intro k b h; cases h), (by intro k b h; cases h)⟩

theorem leaf_deep (H : Nat) (a : α) (p : List (Fin (2 ^ d))) (h : H < p.length) :
    (NTree.leaf a : NTree (2 ^ d) α).descend p = .nil := by
  cases p with
  | nil => cases h
  | cons c p => simp

theorem Wf.allocateBlock {m : NdtreeBlockHash d α} (h : m.Wf) (b : Index d) : (m.getOrAllocateBlock b).Wf := by
  have key : ∀ k x, (m.getOrAllocateBlock b).blocks.getBlock k = some x →
      m.blocks.getBlock k = some x ∨ x = .create m.maxHeight m.defaultValue := by
    intro k x hx
    unfold getOrAllocateBlock at hx
    simp only [SpatialHash.getBlock_getOrAllocate] at hx
    by_cases hk : k = b
    · rw [if_pos hk] at hx
      cases hg : m.blocks.getBlock b with
      | none => rw [hg] at hx; simp at hx; exact Or.inr hx.symm
      | some y => rw [hg] at hx; simp at hx; left; rw [hk, hg, hx]
    · rw [if_neg hk] at hx; exact Or.inl hx
  refine ⟨SpatialHash.keys_getOrAllocate _ _ _ h.nodup, ?_, ?_, ?_⟩
  · intro k x hx
    rcases key k x hx with h1 | rfl
    · exact h.height _ _ h1
    · rfl
  · intro k x hx
    rcases key k x hx with h1 | rfl
    · exact h.root _ _ h1
    · intro hc; cases hc
  · intro k x hx p hp
    rcases key k x hx with h1 | rfl
    · exact h.depth _ _ h1 p hp
    · exact leaf_deep _ _ p hp

theorem Wf.modify {m : NdtreeBlockHash d α} (h : m.Wf) (b : Index d) (f : Ndtree d α → Ndtree d α)
    (hf1 : ∀ x : Ndtree d α, (f x).maxHeight = x.maxHeight) (hf2 : ∀ x : Ndtree d α, x.root ≠ .nil → (f x).root ≠ .nil)
    (hf3 : ∀ x : Ndtree d α, x.maxHeight = m.maxHeight → x.root ≠ .nil →
      (∀ p : List (Fin (2 ^ d)), m.maxHeight < p.length → x.root.descend p = .nil) →
      ∀ p : List (Fin (2 ^ d)), m.maxHeight < p.length → (f x).root.descend p = .nil) :
    Wf { m with blocks := m.blocks.modifyBlock b f } := by
  have key : ∀ k x, (m.blocks.modifyBlock b f).getBlock k = some x →
      m.blocks.getBlock k = some x ∨ ∃ y, m.blocks.getBlock k = some y ∧ x = f y := by
    intro k x hx
    rw [SpatialHash.getBlock_modify] at hx
    by_cases hk : k = b
    · rw [if_pos hk] at hx
      cases hg : m.blocks.getBlock b with
      | none => rw [hg] at hx; cases hx
      | some y => rw [hg] at hx; simp at hx; right; exact ⟨y, by rw [hk, hg], hx.symm⟩
    · rw [if_neg hk] at hx; exact Or.inl hx
  refine ⟨?_, ?_, ?_, ?_⟩
  · show (m.blocks.modifyBlock b f).keys.Nodup
    rw [SpatialHash.keys_modify]; exact h.nodup
  · intro k x hx
    rcases key k x hx with h1 | ⟨y, h1, rfl⟩
    · exact h.height _ _ h1
    · rw [hf1]; exact h.height _ _ h1
  · intro k x hx
    rcases key k x hx with h1 | ⟨y, h1, rfl⟩
    · exact h.root _ _ h1
    · exact hf2 _ (h.root _ _ h1)
  · intro k x hx p hp
    rcases key k x hx with h1 | ⟨y, h1, rfl⟩
    · exact h.depth _ _ h1 p hp
    · exact hf3 _ (h.height _ _ h1) (h.root _ _ h1) (h.depth _ _ h1) p hp

theorem descend_nil_iff_lookup {n : Nat} (t : NTree n α) (p : List (Fin n)) : t.descend p = .nil ↔ t.lookup p = none :=
  NTree.data?_eq_none.symm

/-- `getOrAllocateBlock(b).getOrAllocateNode(indexToCellIndex(n), v)`: new nodes below the root get the value `v`. -/
def getOrAllocateNodeWith (m : NdtreeBlockHash d α) (n : NdtreeIndex d) (v : α) : NdtreeBlockHash d α :=
  let k := m.indexToBlockIndex n
  let m' := m.getOrAllocateBlock k
  { m' with blocks := m'.blocks.modifyBlock k fun b => b.getOrAllocateNode (m.indexToCellIndex n) v }

theorem Wf.allocateWith {m : NdtreeBlockHash d α} (h : m.Wf) (hH : m.maxHeight ≤ 30) (n : NdtreeIndex d) (hn : NodeInHash m.maxHeight n) (v : α) :
    (m.getOrAllocateNodeWith n v).Wf := by
  have h1 := h.allocateBlock (m.indexToBlockIndex n)
  refine h1.modify _ _ (fun _ => rfl) (fun x hx => NTree.allocPath_ne_nil _ _ hx _) ?_
  intro x hx0 hx1 hx2 p hp
  rw [descend_nil_iff_lookup]
  show (NTree.allocPath v x.root (nodePath x.maxHeight (m.indexToCellIndex n))).lookup p = none
  rw [NTree.allocPath_lookup _ _ hx1, if_neg, ← descend_nil_iff_lookup]
  · exact hx2 p hp
  · intro hpre
    have := hpre.length_le
    rw [hx0] at this
    have hl : (nodePath m.maxHeight (m.indexToCellIndex n)).length = _ := nodePath_length (m.cell_inTree hH hn)
    have hp' : m.maxHeight < p.length := hp
    change p.length ≤ (nodePath m.maxHeight (m.indexToCellIndex n)).length at this
    omega

theorem Wf.allocate {m : NdtreeBlockHash d α} (h : m.Wf) (hH : m.maxHeight ≤ 30) (n : NdtreeIndex d) (hn : NodeInHash m.maxHeight n) :
    (m.getOrAllocateNode n).Wf := h.allocateWith hH n hn m.defaultValue

theorem setData_descend {n : Nat} (t : NTree n α) (p : List (Fin n)) (a : α) (q : List (Fin n)) (h : t.descend q = .nil) :
    (NTree.modifyAt (fun s => s.setData a) t p).descend q = .nil := by
  rw [descend_nil_iff_lookup] at h ⊢
  by_cases hpre : p <+: q
  · obtain ⟨r, rfl⟩ := hpre
    rw [NTree.lookup, NTree.modifyAt_descend]
    split
    · rfl
    · rw [← NTree.lookup, NTree.setData_lookup]
      rw [NTree.lookup_append] at h
      split
      · next hr => subst hr; simpa using h
      · exact h
  · rw [NTree.modifyAt_lookup_of_not_prefix _ _ _ _ hpre]; exact h

theorem Wf.set {m : NdtreeBlockHash d α} (h : m.Wf) (hH : m.maxHeight ≤ 30) (n : NdtreeIndex d) (hn : NodeInHash m.maxHeight n) (v : α) :
    (m.setValue n v).Wf := by
  refine (h.allocate hH n hn).modify _ _ (fun _ => rfl) (fun x hx => ?_) ?_
  · exact NTree.modifyAt_ne_nil _ (by intro s hs; cases s <;> simp_all [NTree.setData]) _ hx _
  · intro x _ _ hx2 p hp
    exact setData_descend _ _ _ _ (hx2 p hp)

theorem Wf.eraseBlock {m : NdtreeBlockHash d α} (h : m.Wf) (b : Index d) : (m.eraseBlock b).Wf := by
  have key : ∀ k x, (m.eraseBlock b).blocks.getBlock k = some x → m.blocks.getBlock k = some x := by
    intro k x hx
    unfold NdtreeBlockHash.eraseBlock at hx
    simp only [SpatialHash.getBlock_erase] at hx
    split at hx
    · cases hx
    · exact hx
  exact ⟨SpatialHash.keys_erase _ _ h.nodup, fun k x hx => h.height _ _ (key k x hx), fun k x hx => h.root _ _ (key k x hx),
    fun k x hx => h.depth _ _ (key k x hx)⟩

theorem run_config (m : NdtreeBlockHash d α) (o : NdtreeHashOp d α) :
    (o.run m).maxHeight = m.maxHeight ∧ (o.run m).defaultValue = m.defaultValue := by
  cases o <;> exact ⟨rfl, rfl⟩

theorem Wf.run {m : NdtreeBlockHash d α} (h : m.Wf) (hH : m.maxHeight ≤ 30) (o : NdtreeHashOp d α) (ho : o.Valid m.maxHeight) : (o.run m).Wf := by
  cases o with
  | allocateBlock b => exact h.allocateBlock b
  | allocate n => exact h.allocate hH n ho
  | set n v => exact h.set hH n ho v
  | eraseBlock b => exact h.eraseBlock b
  | clear => exact create_wf _ m.defaultValue

/-- The node found in a block or not at all. -/
theorem getValue_eq (m : NdtreeBlockHash d α) (n : NdtreeIndex d) :
    m.getValue n = (m.blocks.getBlock (m.indexToBlockIndex n)).bind fun b => b.root.lookup (nodePath b.maxHeight (m.indexToCellIndex n)) := by
  unfold getValue getNode
  cases m.blocks.getBlock (m.indexToBlockIndex n) <;> rfl

theorem getValue_allocateBlock {m : NdtreeBlockHash d α} (h : m.Wf) (hH : m.maxHeight ≤ 30)
    (b : Index d) (k : NdtreeIndex d) (hk : NodeInHash m.maxHeight k) :
    (m.getOrAllocateBlock b).getValue k = if k = ⟨m.maxHeight, b⟩ then some ((m.getValue k).getD m.defaultValue) else m.getValue k := by
  have hroot : NodeInHash m.maxHeight (⟨m.maxHeight, b⟩ : NdtreeIndex d) := ⟨by simp, by simp⟩
  have hb : m.indexToBlockIndex ⟨m.maxHeight, b⟩ = b := by
    funext i; rw [m.blk_eq]; simp
  have hpath : nodePath m.maxHeight (m.indexToCellIndex k) = [] ↔ k.height = m.maxHeight := by
    have hl := nodePath_length (m.cell_inTree hH hk)
    have hk0 := hk.1; have hk1 := hk.2
    have hh : (m.indexToCellIndex k).height = k.height := rfl
    rw [← List.length_eq_zero_iff, hl, hh]
    omega
  rw [getValue_eq, getValue_eq]
  have e1 : (m.getOrAllocateBlock b).indexToBlockIndex k = m.indexToBlockIndex k := rfl
  have e2 : (m.getOrAllocateBlock b).indexToCellIndex k = m.indexToCellIndex k := rfl
  rw [e1, e2]
  unfold getOrAllocateBlock
  simp only [SpatialHash.getBlock_getOrAllocate]
  by_cases hkb : m.indexToBlockIndex k = b
  · rw [if_pos hkb, ← hkb]
    cases hg : m.blocks.getBlock (m.indexToBlockIndex k) with
    | some x =>
      simp only [Option.getD_some, Option.bind_some]
      split
      · next he =>
        have : nodePath m.maxHeight (m.indexToCellIndex k) = [] := hpath.2 (by rw [he])
        rw [h.height _ _ hg, this, NTree.lookup_nil]
        have hr := h.root _ _ hg
        cases hx : x.root with
        | nil => exact absurd hx hr
        | leaf a => rfl
        | node a ch => rfl
      · rfl
    | none =>
      simp only [Option.getD_none, Option.bind_some, Option.bind_none, Ndtree.create]
      by_cases he : k.height = m.maxHeight
      · have hke : k = ⟨m.maxHeight, m.indexToBlockIndex k⟩ := by
          ext i
          · exact he
          · show _ = m.indexToBlockIndex k i
            rw [m.blk_eq, he]; simp
        rw [if_pos hke, hpath.2 he]; rfl
      · rw [if_neg (fun hc => he (by rw [hc]))]
        cases hp : nodePath m.maxHeight (m.indexToCellIndex k) with
        | nil => exact absurd (hpath.1 hp) he
        | cons c p => simp
  · rw [if_neg hkb, if_neg]
    rintro rfl
    exact hkb hb

theorem getValue_allocate (hd : 1 ≤ d ∧ d ≤ 3) {m : NdtreeBlockHash d α} (h : m.Wf) (hH : m.maxHeight ≤ 30) (hH' : m.maxHeight ≤ maxTreeHeight d)
    (n : NdtreeIndex d) (hn : NodeInHash m.maxHeight n) (k : NdtreeIndex d) (hk : NodeInHash m.maxHeight k) :
    (m.getOrAllocateNode n).getValue k = if IsAncestorOrSelf k n then some ((m.getValue k).getD m.defaultValue) else m.getValue k := by
  have h1 := h.allocateBlock (m.indexToBlockIndex n)
  have hb1 := getValue_allocateBlock h hH (m.indexToBlockIndex n) k hk
  rw [getValue_eq]
  have e1 : (m.getOrAllocateNode n).indexToBlockIndex k = m.indexToBlockIndex k := rfl
  have e2 : (m.getOrAllocateNode n).indexToCellIndex k = m.indexToCellIndex k := rfl
  rw [e1, e2]
  simp only [m.ancestor_iff hH hk hn]
  unfold getOrAllocateNode
  simp only [SpatialHash.getBlock_modify]
  by_cases hkb : m.indexToBlockIndex k = m.indexToBlockIndex n
  · rw [if_pos hkb]
    rw [getValue_eq] at hb1
    change ((m.getOrAllocateBlock (m.indexToBlockIndex n)).blocks.getBlock (m.indexToBlockIndex k)).bind
      (fun b => b.root.lookup (nodePath b.maxHeight (m.indexToCellIndex k))) = _ at hb1
    rw [hkb] at hb1
    have hsome : ∃ x, (m.getOrAllocateBlock (m.indexToBlockIndex n)).blocks.getBlock (m.indexToBlockIndex n) = some x := by
      unfold getOrAllocateBlock
      rw [SpatialHash.getBlock_getOrAllocate, if_pos rfl]; exact ⟨_, rfl⟩
    obtain ⟨x, hx⟩ := hsome
    rw [hx] at hb1 ⊢
    simp only [Option.bind_some, Option.map_some, Ndtree.getOrAllocateNode] at hb1 ⊢
    have hxh : x.maxHeight = m.maxHeight := h1.height _ _ hx
    rw [hxh] at hb1 ⊢
    rw [NTree.allocPath_lookup _ _ (h1.root _ _ hx)]
    simp only [nodePath_prefix_iff hd hH' (m.cell_inTree hH hk) (m.cell_inTree hH hn), hkb, true_and]
    rw [hb1]
    by_cases ha : IsAncestorOrSelf (m.indexToCellIndex k) (m.indexToCellIndex n)
    · rw [if_pos ha, if_pos ha]
      split <;> rfl
    · rw [if_neg ha, if_neg ha, if_neg]
      intro hc
      apply ha
      have hroot : m.indexToCellIndex k = rootIndex d m.maxHeight :=
        (m.cell_inTree hH hk).eq_root (by show k.height = _; rw [hc])
      rw [← nodePath_prefix_iff hd hH' (m.cell_inTree hH hk) (m.cell_inTree hH hn), hroot, nodePath_root]
      exact List.nil_prefix
  · rw [if_neg hkb, if_neg (fun hc => hkb hc.1), getValue_eq]
    unfold getOrAllocateBlock
    rw [SpatialHash.getBlock_getOrAllocate, if_neg hkb]

theorem getValue_set (hd : 1 ≤ d ∧ d ≤ 3) {m : NdtreeBlockHash d α} (h : m.Wf) (hH : m.maxHeight ≤ 30) (hH' : m.maxHeight ≤ maxTreeHeight d)
    (n : NdtreeIndex d) (hn : NodeInHash m.maxHeight n) (v : α) (k : NdtreeIndex d) (hk : NodeInHash m.maxHeight k) :
    (m.setValue n v).getValue k = if k = n then some v else (m.getOrAllocateNode n).getValue k := by
  have h1 := h.allocate hH n hn
  rw [getValue_eq, getValue_eq]
  have e1 : (m.setValue n v).indexToBlockIndex k = m.indexToBlockIndex k := rfl
  have e2 : (m.setValue n v).indexToCellIndex k = m.indexToCellIndex k := rfl
  have e3 : (m.getOrAllocateNode n).indexToBlockIndex k = m.indexToBlockIndex k := rfl
  have e4 : (m.getOrAllocateNode n).indexToCellIndex k = m.indexToCellIndex k := rfl
  rw [e1, e2, e3, e4]
  simp only [m.eq_iff hH hk hn]
  have hself := getValue_allocate hd h hH hH' n hn n hn
  rw [if_pos ⟨Int.le_refl _, by ext i <;> simp [computeParentIndexAt, divExp2Floor_eq]⟩, getValue_eq] at hself
  change ((m.getOrAllocateNode n).blocks.getBlock (m.indexToBlockIndex n)).bind
      (fun b => b.root.lookup (nodePath b.maxHeight (m.indexToCellIndex n))) = _ at hself
  unfold setValue
  simp only [SpatialHash.getBlock_modify]
  by_cases hkb : m.indexToBlockIndex k = m.indexToBlockIndex n
  · rw [if_pos hkb, hkb]
    cases hx : (m.getOrAllocateNode n).blocks.getBlock (m.indexToBlockIndex n) with
    | none => rw [hx] at hself; cases hself
    | some x =>
      rw [hx] at hself
      simp only [Option.bind_some, Option.map_some, Ndtree.setNodeData, true_and] at hself ⊢
      have hxh : x.maxHeight = m.maxHeight := h1.height _ _ hx
      rw [hxh] at hself ⊢
      by_cases hc : m.indexToCellIndex k = m.indexToCellIndex n
      · rw [if_pos hc, hc]
        have := NTree.modifyAt_descend (fun s => s.setData v) x.root (nodePath m.maxHeight (m.indexToCellIndex n)) []
        rw [List.append_nil] at this
        rw [NTree.lookup, this]
        rw [NTree.lookup] at hself
        cases hy : x.root.descend (nodePath m.maxHeight (m.indexToCellIndex n)) with
        | nil => rw [hy] at hself; cases hself
        | leaf a => rfl
        | node a ch => rfl
      · rw [if_neg hc]
        by_cases hpre : nodePath m.maxHeight (m.indexToCellIndex n) <+: nodePath m.maxHeight (m.indexToCellIndex k)
        · obtain ⟨q, hq⟩ := hpre
          rw [← hq, NTree.lookup, NTree.modifyAt_descend]
          have hqne : q ≠ [] := by
            rintro rfl
            rw [List.append_nil] at hq
            exact hc ((nodePath_injective hd hH' (m.cell_inTree hH hn) (m.cell_inTree hH hk)).1 hq).symm
          split
          · next hnil =>
            rw [NTree.isNil_iff] at hnil
            rw [NTree.lookup_append, hnil]; simp
          · rw [← NTree.lookup, NTree.setData_lookup, if_neg hqne, NTree.lookup_append]
        · rw [NTree.modifyAt_lookup_of_not_prefix _ _ _ _ hpre]
  · rw [if_neg hkb, if_neg (fun hc => hkb hc.1)]

theorem getValue_erase {m : NdtreeBlockHash d α} (hH : m.maxHeight ≤ 30) (b : Index d) (k : NdtreeIndex d) (hk : NodeInHash m.maxHeight k) :
    (m.eraseBlock b).getValue k = if IsAncestorOrSelf ⟨m.maxHeight, b⟩ k then none else m.getValue k := by
  rw [getValue_eq, getValue_eq]
  have e1 : (m.eraseBlock b).indexToBlockIndex k = m.indexToBlockIndex k := rfl
  have e2 : (m.eraseBlock b).indexToCellIndex k = m.indexToCellIndex k := rfl
  rw [e1, e2]
  unfold NdtreeBlockHash.eraseBlock
  simp only [SpatialHash.getBlock_erase]
  have : m.indexToBlockIndex k = b ↔ IsAncestorOrSelf ⟨m.maxHeight, b⟩ k := by
    unfold IsAncestorOrSelf
    simp only [hk.2, true_and, computeParentIndexAt, NdtreeIndex.mk.injEq]
    rfl
  simp only [← this]
  split <;> rfl

/-! ### Ancestors and leaves -/

theorem anc_refl (n : NdtreeIndex d) : IsAncestorOrSelf n n := ⟨Int.le_refl _, (C02_parentAt_base n).1⟩

theorem anc_trans {a b c : NdtreeIndex d} (h1 : IsAncestorOrSelf a b) (h2 : IsAncestorOrSelf b c) : IsAncestorOrSelf a c := by
  refine ⟨Int.le_trans h2.1 h1.1, ?_⟩
  rw [← C02_parentAt_trans c b.height a.height h2.1 h1.1, h2.2, h1.2]

theorem anc_child (n : NdtreeIndex d) (c : Nat) : IsAncestorOrSelf n (n.computeChildIndex c) := by
  refine ⟨by simp only [computeChildIndex]; omega, ?_⟩
  have h := (C02_parentAt_base (n.computeChildIndex c)).2
  rw [C02_parent_of_child] at h
  have : (n.computeChildIndex c).height + 1 = n.height := by simp only [computeChildIndex]; omega
  rw [this] at h; exact h

theorem anc_unique {a b c : NdtreeIndex d} (h1 : IsAncestorOrSelf a c) (h2 : IsAncestorOrSelf b c) (h : a.height = b.height) : a = b := by
  rw [← h1.2, ← h2.2, h]

/-- The node reached from `n` by choosing children. -/
def below (n : NdtreeIndex d) (p : List (Fin (2 ^ d))) : NdtreeIndex d := p.foldl (fun n c => n.computeChildIndex c.val) n

theorem anc_below (n : NdtreeIndex d) (p : List (Fin (2 ^ d))) : IsAncestorOrSelf n (below n p) := by
  induction p generalizing n with
  | nil => exact anc_refl n
  | cons c p ih => exact anc_trans (anc_child n c.val) (ih _)

theorem below_block (H : Nat) (b : Index d) (p : List (Fin (2 ^ d))) :
    (below ⟨H, b⟩ p).height = (indexOfPath H p).height ∧
      ∀ i, (below ⟨H, b⟩ p).position i = 2 ^ p.length * b i + (indexOfPath H p).position i := by
  induction p using List.reverseRecOn with
  | nil => exact ⟨rfl, fun i => by simp [below, indexOfPath, rootIndex]⟩
  | append_singleton p c ih =>
    have e : below ⟨H, b⟩ (p ++ [c]) = (below ⟨H, b⟩ p).computeChildIndex c.val := by simp [below]
    rw [e, indexOfPath_append]
    refine ⟨by simp only [computeChildIndex]; rw [ih.1], fun i => ?_⟩
    simp only [computeChildIndex, ih.2 i, List.length_append, List.length_cons, List.length_nil, Int.pow_succ, Nat.zero_add]
    generalize (2 : Int) ^ p.length = A
    have : A * 2 * b i = A * b i * 2 := by rw [Int.mul_assoc, Int.mul_assoc, Int.mul_comm 2 (b i)]
    rw [this]; omega

theorem below_cell (hd : 1 ≤ d ∧ d ≤ 3) (m : NdtreeBlockHash d α) (hH : m.maxHeight ≤ 30) (hH' : m.maxHeight ≤ maxTreeHeight d)
    {n : NdtreeIndex d} (hn : NodeInHash m.maxHeight n) :
    below ⟨m.maxHeight, m.indexToBlockIndex n⟩ (nodePath m.maxHeight (m.indexToCellIndex n)) = n := by
  have hc := m.cell_inTree hH hn
  obtain ⟨h1, h2⟩ := below_block m.maxHeight (m.indexToBlockIndex n) (nodePath m.maxHeight (m.indexToCellIndex n))
  rw [indexOfPath_nodePath hd hH' _ hc] at h1
  ext i
  · exact h1
  · rw [h2 i, indexOfPath_nodePath hd hH' _ hc, nodePath_length hc, m.cell_eq hH hn, m.blk_eq]
    have h0 := hn.1; have h3 := hn.2
    have : m.maxHeight - (m.indexToCellIndex n).height.toNat = ((m.maxHeight : Int) - n.height).toNat := by
      show m.maxHeight - n.height.toNat = _; omega
    rw [this]
    have := Int.emod_add_mul_ediv (n.position i) (2 ^ ((m.maxHeight : Int) - n.height).toNat)
    omega

theorem leaves_below (t : NTree (2 ^ d) α) : ∀ (n : NdtreeIndex d), ∀ l ∈ nodeLeaves t n, IsAncestorOrSelf n l.1 := by
  induction t with
  | nil => intro n l hl; simp [nodeLeaves] at hl
  | leaf a => intro n l hl; simp only [nodeLeaves, List.mem_singleton] at hl; rw [hl]; exact anc_refl n
  | node a ch ih =>
    intro n l hl
    simp only [nodeLeaves] at hl
    split at hl
    · rw [List.mem_flatMap] at hl
      obtain ⟨c, -, hl⟩ := hl
      split at hl
      · simp only [List.mem_singleton] at hl; rw [hl]; exact anc_child n c.val
      · exact anc_trans (anc_child n c.val) (ih c _ l hl)
    · simp only [List.mem_singleton] at hl; rw [hl]; exact anc_refl n

theorem leaves_spec (t : NTree (2 ^ d) α) : ∀ (n : NdtreeIndex d) (p : List (Fin (2 ^ d))), t ≠ .nil →
    (∀ q : List (Fin (2 ^ d)), p.length < q.length → t.descend q = .nil) →
    ∃ leaf v, (nodeLeaves t n).filter (fun l => decide (IsAncestorOrSelf l.1 (below n p))) = [(leaf, v)] ∧
      (t.descendOrAncestor p).1.data? = some v := by
  induction t with
  | nil => intro n p h; exact absurd rfl h
  | leaf a =>
    intro n p _ _
    refine ⟨n, a, ?_, ?_⟩
    · simp only [nodeLeaves, List.filter_cons, anc_below n p, decide_true, if_true, List.filter_nil]
    · cases p <;> simp [NTree.descendOrAncestor]
  | node a ch ih =>
    intro n p _ hdepth
    simp only [nodeLeaves]
    by_cases hc : (NTree.node a ch).hasAtLeastOneChild = true
    · rw [if_pos hc]
      have hne : ∃ i, ch i ≠ .nil := by
        unfold NTree.hasAtLeastOneChild at hc
        rw [Bool.and_eq_true, List.any_eq_true] at hc
        obtain ⟨i, -, hi⟩ := hc.2
        refine ⟨i, fun h => ?_⟩
        simp [h, NTree.isNil] at hi
      obtain ⟨i, hi⟩ := hne
      cases p with
      | nil =>
        have := hdepth [i] (by simp)
        simp at this
        exact absurd this hi
      | cons j p =>
        have hin : IsAncestorOrSelf (n.computeChildIndex j.val) (below n (j :: p)) := anc_below _ p
        rw [filter_flatMap_single (List.finRange (2 ^ d)) (List.nodup_finRange _) j (List.mem_finRange j)]
        · by_cases hj : ch j = .nil
          · refine ⟨n.computeChildIndex j.val, a, ?_, ?_⟩
            · rw [if_pos (NTree.isNil_iff.2 hj)]
              simp only [List.filter_cons, hin, decide_true, if_true, List.filter_nil]
            · simp [NTree.descendOrAncestor, hj]
          · rw [if_neg (by rw [NTree.isNil_iff]; exact hj)]
            obtain ⟨leaf, v, h1, h2⟩ := ih j (n.computeChildIndex j.val) p hj (by
              intro q hq
              have := hdepth (j :: q) (by simpa using hq)
              simpa using this)
            refine ⟨leaf, v, h1, ?_⟩
            rw [← h2]
            have : (NTree.node a ch).descendOrAncestor (j :: p) = (ch j).descendOrAncestor p := by
              cases hcj : ch j with
              | nil => exact absurd hcj hj
              | leaf b => simp only [NTree.descendOrAncestor, NTree.child_node, hcj]
              | node b cc => simp only [NTree.descendOrAncestor, NTree.child_node, hcj]
            rw [this]
        · intro c hcj
          rw [List.filter_eq_nil_iff]
          intro x hx hanc
          rw [decide_eq_true_eq] at hanc
          have h3 : IsAncestorOrSelf (n.computeChildIndex c.val) x.1 := by
            split at hx
            · simp only [List.mem_singleton] at hx; rw [hx]; exact anc_refl _
            · exact leaves_below _ _ x hx
          have := anc_unique (anc_trans h3 hanc) hin rfl
          have := (C02_children_distinct _ _ _ _ c.isLt j.isLt this).2
          exact hcj (Fin.ext this)
    · rw [if_neg hc]
      refine ⟨n, a, ?_, ?_⟩
      · simp only [List.filter_cons, anc_below n p, decide_true, if_true, List.filter_nil]
      · cases p with
        | nil => simp [NTree.descendOrAncestor]
        | cons j p =>
          have hj : ch j = .nil := by
            by_contra hj
            apply hc
            unfold NTree.hasAtLeastOneChild
            rw [Bool.and_eq_true, List.any_eq_true]
            refine ⟨rfl, j, List.mem_finRange j, ?_⟩
            have : ¬ (ch j).isNil = true := by rw [NTree.isNil_iff]; exact hj
            simpa using this
          simp [NTree.descendOrAncestor, hj]

end NdtreeBlockHash

/-! ## Properties -/

/-- A hashed octree after a sequence of operations. -/
def runNdtreeHash (H : Nat) (dv : α) (ops : List (NdtreeHashOp d α)) : NdtreeBlockHash d α :=
  ops.foldl NdtreeHashOp.run (.create H dv)

theorem runNdtreeHash_wf (H : Nat) (hH : H ≤ 30) (dv : α) (ops : List (NdtreeHashOp d α)) (hops : ∀ o ∈ ops, o.Valid H) :
    (runNdtreeHash H dv ops).Wf ∧ (runNdtreeHash H dv ops).maxHeight = H ∧ (runNdtreeHash H dv ops).defaultValue = dv := by
  suffices ∀ m : NdtreeBlockHash d α, m.Wf → m.maxHeight = H → m.defaultValue = dv →
      (ops.foldl NdtreeHashOp.run m).Wf ∧ (ops.foldl NdtreeHashOp.run m).maxHeight = H ∧ (ops.foldl NdtreeHashOp.run m).defaultValue = dv from
    this _ (NdtreeBlockHash.create_wf H dv) rfl rfl
  induction ops with
  | nil => intro m h1 h2 h3; exact ⟨h1, h2, h3⟩
  | cons o ops ih =>
    intro m h1 h2 h3
    have ho := hops o (List.mem_cons_self ..)
    exact ih (fun o ho => hops o (List.mem_cons_of_mem _ ho)) _ (h1.run (by omega) o (by rw [h2]; exact ho))
      ((m.run_config o).1.trans h2) ((m.run_config o).2.trans h3)

/-- C61: after any sequence of operations, `getValue` returns the entry of a plain table on which the same operations have been
performed, and `getValueOrDefault` that entry or the default value. -/
theorem C61_hash_is_table (hd : 1 ≤ d ∧ d ≤ 3) (H : Nat) (hH : H ≤ 30) (hH' : H ≤ maxTreeHeight d) (dv : α)
    (ops : List (NdtreeHashOp d α)) (hops : ∀ o ∈ ops, o.Valid H) (k : NdtreeIndex d) (hk : NodeInHash H k) :
    (runNdtreeHash H dv ops).getValue k = ops.foldl (NdtreeHashOp.spec H dv) (fun _ => none) k ∧
    (runNdtreeHash H dv ops).getValueOrDefault k = (ops.foldl (NdtreeHashOp.spec H dv) (fun _ => none) k).getD dv := by
  have main : (runNdtreeHash H dv ops).getValue k = ops.foldl (NdtreeHashOp.spec H dv) (fun _ => none) k := by
    suffices ∀ (m : NdtreeBlockHash d α) (t : NdtreeIndex d → Option α), m.Wf → m.maxHeight = H → m.defaultValue = dv →
        (∀ k, NodeInHash H k → m.getValue k = t k) → ∀ k, NodeInHash H k →
        (ops.foldl NdtreeHashOp.run m).getValue k = ops.foldl (NdtreeHashOp.spec H dv) t k from
      this _ _ (NdtreeBlockHash.create_wf H dv) rfl rfl (fun _ _ => rfl) k hk
    clear hk k
    induction ops with
    | nil => intro m t _ _ _ h k hk; exact h k hk
    | cons o ops ih =>
      intro m t h1 h2 h3 h4 k hk
      have ho := hops o (List.mem_cons_self ..)
      refine ih (fun o ho => hops o (List.mem_cons_of_mem _ ho)) _ _ (h1.run (by omega) o (by rw [h2]; exact ho))
        ((m.run_config o).1.trans h2) ((m.run_config o).2.trans h3) ?_ k hk
      intro k hk
      subst h2 h3
      cases o with
      | allocateBlock b =>
        have := NdtreeBlockHash.getValue_allocateBlock h1 hH b k hk
        rw [h4 k hk] at this; exact this
      | allocate n =>
        have := NdtreeBlockHash.getValue_allocate hd h1 hH hH' n ho k hk
        rw [h4 k hk] at this; exact this
      | set n v =>
        have := NdtreeBlockHash.getValue_set hd h1 hH hH' n ho v k hk
        rw [NdtreeBlockHash.getValue_allocate hd h1 hH hH' n ho k hk, h4 k hk] at this; exact this
      | eraseBlock b =>
        have := NdtreeBlockHash.getValue_erase hH b k hk
        rw [h4 k hk] at this; exact this
      | clear => rfl
  refine ⟨main, ?_⟩
  rw [← main]
  unfold NdtreeBlockHash.getValueOrDefault
  rw [(runNdtreeHash_wf H hH dv ops hops).2.2]
  cases (runNdtreeHash H dv ops).getValue k <;> rfl

/-- C61: after any sequence of operations, `getNodeOrAncestor` returns the nearest allocated ancestor of the queried node and its
height, or null and the tree height if no ancestor is allocated. -/
theorem C61_nearest_ancestor (hd : 1 ≤ d ∧ d ≤ 3) (H : Nat) (hH : H ≤ 30) (hH' : H ≤ maxTreeHeight d) (dv : α)
    (ops : List (NdtreeHashOp d α)) (hops : ∀ o ∈ ops, o.Valid H) (k : NdtreeIndex d) (hk : NodeInHash H k) :
    let m := runNdtreeHash H dv ops
    let r := m.getNodeOrAncestor k
    k.height ≤ r.2 ∧ r.2 ≤ H ∧ r.1.data? = m.getValue (k.computeParentIndexAt r.2) ∧
    (∀ h, k.height ≤ h → h < r.2 → m.getValue (k.computeParentIndexAt h) = none) ∧ (r.1 = .nil → r.2 = H) := by
  obtain ⟨hw, hmH, hdv⟩ := runNdtreeHash_wf H hH dv ops hops
  generalize runNdtreeHash H dv ops = m at hw hmH hdv
  subst hmH hdv
  dsimp only
  -- the ancestors of `k` lie in the same block
  have hanc : ∀ h, k.height ≤ h → h ≤ m.maxHeight →
      m.indexToBlockIndex (k.computeParentIndexAt h) = m.indexToBlockIndex k ∧
      m.indexToCellIndex (k.computeParentIndexAt h) = (m.indexToCellIndex k).computeParentIndexAt h := by
    intro h h1 h2
    have := (m.ancestor_iff hH (k := k.computeParentIndexAt h) (n := k) ⟨Int.le_trans hk.1 h1, h2⟩ hk).1 ⟨h1, rfl⟩
    exact ⟨this.1, this.2.2.symm⟩
  have hval : ∀ h, k.height ≤ h → h ≤ m.maxHeight → m.getValue (k.computeParentIndexAt h) =
      (m.blocks.getBlock (m.indexToBlockIndex k)).bind fun b => (b.getNode ((m.indexToCellIndex k).computeParentIndexAt h)).data? := by
    intro h h1 h2
    rw [NdtreeBlockHash.getValue_eq, (hanc h h1 h2).1, (hanc h h1 h2).2]
    rfl
  unfold NdtreeBlockHash.getNodeOrAncestor
  cases hg : m.blocks.getBlock (m.indexToBlockIndex k) with
  | none =>
    refine ⟨hk.2, Int.le_refl _, ?_, ?_, fun _ => rfl⟩
    · dsimp only; rw [hval _ hk.2 (Int.le_refl _), hg]; rfl
    · intro h h1 h2; rw [hval h h1 (Int.le_of_lt h2), hg]; rfl
  | some b =>
    dsimp only
    have hb := hw.height _ _ hg
    obtain ⟨c1, c2, c3, c4, c5, -⟩ := C13_deepest_allocated_ancestor hd b (by rw [hb]; exact hH') (hw.root _ _ hg) (m.indexToCellIndex k)
      (by rw [hb]; exact m.cell_inTree hH hk)
    rw [hb] at c2
    have c1' : k.height ≤ (b.getNodeOrAncestor (m.indexToCellIndex k)).2 := c1
    refine ⟨c1', c2, ?_, ?_, fun h => absurd h c3⟩
    · rw [hval _ c1' c2, hg, c4]; rfl
    · intro h h1 h2
      rw [hval h h1 (by omega), hg]
      simp only [Option.bind_some]
      rw [c5 h h1 h2]; rfl

/-- C61: after any sequence of operations, every cell of an allocated block lies in exactly one leaf reported by `forEachLeaf`, with
the value of the nearest allocated ancestor of the cell, and every other cell in none. -/
theorem C61_leaves_partition (hd : 1 ≤ d ∧ d ≤ 3) (H : Nat) (hH : H ≤ 30) (hH' : H ≤ maxTreeHeight d) (dv : α)
    (ops : List (NdtreeHashOp d α)) (hops : ∀ o ∈ ops, o.Valid H) (k : NdtreeIndex d) (hk : k.height = 0) :
    let m := runNdtreeHash H dv ops
    match m.getValue (k.computeParentIndexAt H) with
    | none => m.forEachLeaf.filter (fun l => decide (IsAncestorOrSelf l.1 k)) = []
    | some _ => ∃ leaf v, m.forEachLeaf.filter (fun l => decide (IsAncestorOrSelf l.1 k)) = [(leaf, v)] ∧
        (m.getNodeOrAncestor k).1.data? = some v := by
  obtain ⟨hw, hmH, hdv⟩ := runNdtreeHash_wf H hH dv ops hops
  generalize runNdtreeHash H dv ops = m at hw hmH hdv
  subst hmH hdv
  dsimp only
  have hkh : NodeInHash m.maxHeight k := ⟨by omega, by omega⟩
  have hcell := m.cell_inTree hH hkh
  have hbel := NdtreeBlockHash.below_cell hd m hH hH' hkh
  have hblk : k.computeParentIndexAt m.maxHeight = ⟨m.maxHeight, m.indexToBlockIndex k⟩ := rfl
  have hout : ∀ b : Index d, b ≠ m.indexToBlockIndex k → ∀ t : NTree (2 ^ d) α,
      (NdtreeBlockHash.nodeLeaves t ⟨m.maxHeight, b⟩).filter (fun l => decide (IsAncestorOrSelf l.1 k)) = [] := by
    intro b hb t
    rw [List.filter_eq_nil_iff]
    intro l hl hc
    rw [decide_eq_true_eq] at hc
    have h1 := NdtreeBlockHash.anc_trans (NdtreeBlockHash.leaves_below t _ l hl) hc
    have h2 : IsAncestorOrSelf ⟨m.maxHeight, m.indexToBlockIndex k⟩ k := ⟨hkh.2, hblk⟩
    have := NdtreeBlockHash.anc_unique h1 h2 rfl
    exact hb (congrArg NdtreeIndex.position this)
  have hroot : m.getValue (k.computeParentIndexAt m.maxHeight) = (m.blocks.getBlock (m.indexToBlockIndex k)).bind fun b => b.root.data? := by
    rw [NdtreeBlockHash.getValue_eq, hblk]
    have e1 : m.indexToBlockIndex ⟨m.maxHeight, m.indexToBlockIndex k⟩ = m.indexToBlockIndex k := by
      funext i; rw [m.blk_eq]; simp
    have hin : NodeInHash m.maxHeight (⟨m.maxHeight, m.indexToBlockIndex k⟩ : NdtreeIndex d) := ⟨by simp, by simp⟩
    rw [e1]
    cases hg : m.blocks.getBlock (m.indexToBlockIndex k) with
    | none => rfl
    | some b =>
      simp only [Option.bind_some]
      rw [hw.height _ _ hg, (m.cell_inTree hH hin).eq_root rfl, nodePath_root, NTree.lookup_nil]
  rw [hroot]
  cases hg : m.blocks.getBlock (m.indexToBlockIndex k) with
  | none =>
    simp only [Option.bind_none]
    rw [SpatialHash.getBlock_eq_none] at hg
    unfold NdtreeBlockHash.forEachLeaf
    rw [List.filter_flatMap, List.flatMap_eq_nil_iff]
    intro e he
    exact hout e.1 (fun h => hg (h ▸ List.mem_map_of_mem (f := Prod.fst) he)) _
  | some b =>
    have hbr := hw.root _ _ hg
    obtain ⟨leaf, v, h1, h2⟩ := NdtreeBlockHash.leaves_spec b.root ⟨m.maxHeight, m.indexToBlockIndex k⟩
      (nodePath m.maxHeight (m.indexToCellIndex k)) hbr (by
        intro q hq
        refine hw.depth _ _ hg q ?_
        rw [nodePath_length hcell] at hq
        have : (m.indexToCellIndex k).height = 0 := hk
        omega)
    rw [hbel] at h1
    have hall : m.forEachLeaf.filter (fun l => decide (IsAncestorOrSelf l.1 k)) = [(leaf, v)] := by
      rw [← h1]
      unfold NdtreeBlockHash.forEachLeaf
      have hmem := SpatialHash.mem_of_getBlock hg
      have hn := hw.nodup
      clear hg hroot
      generalize m.blocks = bm at hmem hn
      induction bm with
      | nil => cases hmem
      | cons e bm ih =>
        simp only [SpatialHash.keys, List.map_cons, List.nodup_cons] at hn
        rw [List.flatMap_cons, List.filter_append]
        rcases List.mem_cons.1 hmem with rfl | hmem
        · have : (List.flatMap (fun e => NdtreeBlockHash.nodeLeaves e.2.root ⟨m.maxHeight, e.1⟩) bm).filter
              (fun l => decide (IsAncestorOrSelf l.1 k)) = [] := by
            rw [List.filter_flatMap, List.flatMap_eq_nil_iff]
            intro e he
            refine hout e.1 (fun h => hn.1 ?_) _
            show m.indexToBlockIndex k ∈ _
            rw [← h]; exact List.mem_map_of_mem (f := Prod.fst) he
          rw [this, List.append_nil]
        · rw [hout e.1 (fun h => hn.1 (h ▸ List.mem_map_of_mem (f := Prod.fst) hmem)), List.nil_append]
          exact ih hmem hn.2
    have hbd : ∃ a, b.root.data? = some a := by
      cases hx : b.root with
      | nil => exact absurd hx hbr
      | leaf a => exact ⟨a, rfl⟩
      | node a ch => exact ⟨a, rfl⟩
    obtain ⟨a, ha⟩ := hbd
    simp only [Option.bind_some, ha]
    refine ⟨leaf, v, hall, ?_⟩
    unfold NdtreeBlockHash.getNodeOrAncestor
    rw [hg]
    show (b.root.descendOrAncestor (nodePath b.maxHeight (m.indexToCellIndex k))).1.data? = some v
    rw [hw.height _ _ hg]; exact h2

example : -- values at several heights, in two blocks
    let ops : List (NdtreeHashOp 3 Nat) := [.set ⟨0, ![1, 2, 3]⟩ 5, .set ⟨1, ![-1, 0, 0]⟩ 6, .allocateBlock ![9, 9, 9], .allocate ⟨0, ![-5, 0, 0]⟩,
      .eraseBlock ![9, 9, 9]]
    let m := runNdtreeHash 2 7 ops
    (∀ o ∈ ops, o.Valid 2) ∧ m.getValue ⟨0, ![1, 2, 3]⟩ = some 5 ∧ m.getValue ⟨1, ![0, 1, 1]⟩ = some 7 ∧
      m.getValue ⟨0, ![1, 2, 2]⟩ = none ∧ m.getValue ⟨1, ![-1, 0, 0]⟩ = some 6 ∧ (m.getNodeOrAncestor ⟨0, ![-1, 0, 1]⟩).1.data? = some 6 ∧
      (m.getNodeOrAncestor ⟨0, ![-1, 0, 1]⟩).2 = 1 ∧ m.getValue ⟨2, ![9, 9, 9]⟩ = none ∧ m.getValue ⟨0, ![-5, 0, 0]⟩ = some 7 ∧
      m.forEachLeaf.length = 15 + 8 + 15 := by
  refine ⟨?_, by decide +kernel, by decide +kernel, by decide +kernel, by decide +kernel, by decide +kernel, by decide +kernel,
    by decide +kernel, by decide +kernel, by decide +kernel⟩
  intro o ho
  simp only [List.mem_cons, List.not_mem_nil, or_false] at ho
  rcases ho with rfl | rfl | rfl | rfl | rfl <;> first | exact trivial | exact ⟨by decide, by decide⟩

/-- C61: block index and index inside the block determine the node: `cellAndBlockIndexToIndex` undoes the decomposition, and every
pair of a block and a node of its tree is the decomposition of a node. -/
theorem C61_index_roundtrip (m : NdtreeBlockHash d α) (hH : m.maxHeight ≤ 30) :
    (∀ n, NodeInHash m.maxHeight n → NodeInTree m.maxHeight (m.indexToCellIndex n) ∧
      m.cellAndBlockIndexToIndex (m.indexToBlockIndex n) (m.indexToCellIndex n) = n) ∧
    (∀ b n, NodeInTree m.maxHeight n → NodeInHash m.maxHeight (m.cellAndBlockIndexToIndex b n) ∧
      m.indexToBlockIndex (m.cellAndBlockIndexToIndex b n) = b ∧ m.indexToCellIndex (m.cellAndBlockIndexToIndex b n) = n) := by
  constructor
  · intro n hn
    refine ⟨m.cell_inTree hH hn, ?_⟩
    ext i
    · rfl
    · show (m.indexToCellIndex n).position i + (exp2 ((m.maxHeight : Int) - n.height).toNat : Nat) * m.indexToBlockIndex n i = n.position i
      rw [m.cell_eq hH hn, m.blk_eq, exp2_eq]
      push_cast
      exact Int.emod_add_mul_ediv _ _
  · intro b n hn
    have h0 := hn.1; have h1 := hn.2.1
    have hin : NodeInHash m.maxHeight (m.cellAndBlockIndexToIndex b n) := ⟨h0, h1⟩
    have hE : ((m.maxHeight : Int) - n.height).toNat = m.maxHeight - n.height.toNat := by omega
    have hpos : ∀ i, (m.cellAndBlockIndexToIndex b n).position i = n.position i + 2 ^ (m.maxHeight - n.height.toNat) * b i := by
      intro i
      show n.position i + (exp2 ((m.maxHeight : Int) - n.height).toNat : Nat) * b i = _
      rw [exp2_eq, hE]; push_cast; rfl
    have hh : (m.cellAndBlockIndexToIndex b n).height = n.height := rfl
    have hp := two_pow_pos' (m.maxHeight - n.height.toNat)
    refine ⟨hin, ?_, ?_⟩
    · funext i
      rw [m.blk_eq, hpos, hh, hE, Int.add_mul_ediv_left _ _ (Int.ne_of_gt hp),
        Int.ediv_eq_zero_of_lt (hn.2.2 i).1 (hn.2.2 i).2, Int.zero_add]
    · ext i
      · rfl
      · rw [m.cell_eq hH hin, hpos, hh, hE, Int.add_mul_emod_self_left, Int.emod_eq_of_lt (hn.2.2 i).1 (hn.2.2 i).2]

example : -- a node at height 1 in the block at (-1, 0, 2) of a tree of height 3
    let m : NdtreeBlockHash 3 Nat := .create 3 0
    NodeInHash 3 (⟨1, ![-1, 3, 10]⟩ : NdtreeIndex 3) ∧ m.indexToBlockIndex ⟨1, ![-1, 3, 10]⟩ = ![-1, 0, 2] ∧
      m.indexToCellIndex ⟨1, ![-1, 3, 10]⟩ = ⟨1, ![3, 3, 2]⟩ :=
  ⟨⟨by decide, by decide⟩, by decide +kernel, by decide +kernel⟩

end Wavemap
