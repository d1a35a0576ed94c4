import Verif.Lemmas.QueryNdtree
import Verif.Props.QueryAccelerator
/-! # The accelerator of hashed octrees answers like the octree itself (C25) -/
namespace Wavemap
open NdtreeIndex
variable {α : Type}

/-! ## Specification -/

/-- One call on a `QueryAccelerator` of a hashed octree. -/
inductive OctreeQueryOp (α : Type) where
  /-- `getNode(n)` -/
  | get (n : NdtreeIndex 3)
  /-- `getOrAllocateNode(n, v)` -/
  | alloc (n : NdtreeIndex 3) (v : α)
  /-- `reset()` -/
  | reset

/-- The octree and the nodes returned by a sequence of calls through an accelerator in state `a` (`nil` for the null pointer); `none`
if one of the calls has undefined behaviour. -/
def NdtreeAccelerator.answers : NdtreeBlockHash 3 α → NdtreeAccelerator → List (OctreeQueryOp α) →
    Option (NdtreeBlockHash 3 α × List (NTree (2 ^ 3) α))
  | m, _, [] => some (m, [])
  | m, a, .get n :: ops =>
    match getNode m a n with
    | none => none
    | some (x, a') => (answers m a' ops).map fun r => (r.1, (match x with | none => NTree.nil | some x => deref m x) :: r.2)
  | m, a, .alloc n v :: ops =>
    match getOrAllocateNode m a n v with
    | none => none
    | some (m', x, a') => (answers m' a' ops).map fun r => (r.1, deref m' x :: r.2)
  | m, _, .reset :: ops => answers m (fresh m) ops

/-- The octree and the nodes that the calls on the octree itself give: `getNodeOrAncestor(n)`, or
`getOrAllocateBlock(b).getOrAllocateNode(c, v)` for the block and cell of `n`. -/
def OctreeQueryOp.direct : NdtreeBlockHash 3 α → List (OctreeQueryOp α) → NdtreeBlockHash 3 α × List (NTree (2 ^ 3) α)
  | m, [] => (m, [])
  | m, .get n :: ops => let r := direct m ops; (r.1, (m.getNodeOrAncestor n).1 :: r.2)
  | m, .alloc n v :: ops =>
    let m' := m.getOrAllocateNodeWith n v
    let r := direct m' ops; (r.1, m'.getNode n :: r.2)
  | m, .reset :: ops => direct m ops

/-- The nodes that are asked for. -/
def OctreeQueryOp.nodes : List (OctreeQueryOp α) → List (NdtreeIndex 3)
  | [] => []
  | .get n :: ops => n :: nodes ops
  | .alloc n _ :: ops => n :: nodes ops
  | .reset :: ops => nodes ops

/-! ## Theorems -/

theorem NdtreeAccelerator.answers_spec (H : Nat) (h0 : 0 < H) (hH : H < 20) : ∀ (ops : List (OctreeQueryOp α)) (m : NdtreeBlockHash 3 α)
    (a : NdtreeAccelerator), m.maxHeight = H → m.Wf → Inv m a → (∀ n ∈ OctreeQueryOp.nodes ops, NodeQuery H n) →
    answers m a ops = some (OctreeQueryOp.direct m ops) := by
  intro ops
  induction ops with
  | nil => intro m a _ _ _ _; rfl
  | cons op ops ih =>
    intro m a hm hw ha hq
    have hne : ∀ n, NodeQuery H n → NodeInHash m.maxHeight n ∧ m.indexToBlockIndex n ≠ noBlockIndex := by
      intro n hn
      have h1 : NodeInHash m.maxHeight n := ⟨hn.1, by rw [hm]; exact hn.2.1⟩
      refine ⟨h1, ?_⟩
      rw [blk_eq_blockOfNode m n h1, hm, ← blockOfNode_eq n hn.1 hn.2.1]
      exact block_ne_noBlock h0 _ hn.2.2
    cases op with
    | get n =>
      obtain ⟨h1, h2⟩ := hne n (hq n (List.mem_cons_self ..))
      obtain ⟨r, a', e, hi, hr, -⟩ := getNode_spec hw (by omega) a ha n h1 h2
      simp only [answers, e, OctreeQueryOp.direct]
      rw [ih m a' hm hw hi fun n' hn' => hq n' (List.mem_cons_of_mem _ hn'), ← hr]
      rfl
    | alloc n v =>
      obtain ⟨h1, h2⟩ := hne n (hq n (List.mem_cons_self ..))
      obtain ⟨x, a', e, hi, hr, -⟩ := getOrAllocateNode_spec hw (by omega) a ha n h1 h2 v
      simp only [answers, e, OctreeQueryOp.direct]
      rw [ih (m.getOrAllocateNodeWith n v) a' hm (hw.allocateWith (by omega) n h1 v) hi fun n' hn' => hq n' (List.mem_cons_of_mem _ hn'), ← hr]
      rfl
    | reset =>
      simp only [answers, OctreeQueryOp.direct]
      exact ih m _ hm hw (fresh_inv m) hq

/-- C25 for hashed octrees of height below 20: for every history of the octree and every sequence of `getNode`, `getOrAllocateNode`
and `reset` calls on one accelerator, all calls succeed, the octree ends up the same as under the direct calls, and the returned
nodes are the ones the octree itself gives. *Partial*: `getNode` answers like `getNodeOrAncestor`, not like `getNode`
(`C25_octree_getNode_fails`), tree height 20 overflows the stack (`C25_stack_overflow_fails`), and blocks or nodes must not be erased
behind the accelerator's back, which the header asks for. -/
theorem C25_octree_hash_partial (H : Nat) (h0 : 0 < H) (hH : H < 20) (dv : α) (history : List (NdtreeHashOp 3 α))
    (hv : ∀ op ∈ history, op.Valid H) (ops : List (OctreeQueryOp α)) (hq : ∀ n ∈ OctreeQueryOp.nodes ops, NodeQuery H n) :
    NdtreeAccelerator.answers (runNdtreeHash H dv history) (.fresh (runNdtreeHash H dv history)) ops =
      some (OctreeQueryOp.direct (runNdtreeHash H dv history) ops) := by
  obtain ⟨hw, hm, -⟩ := runNdtreeHash_wf H (by omega) dv history hv
  exact NdtreeAccelerator.answers_spec H h0 hH ops _ _ hm hw (NdtreeAccelerator.fresh_inv _) hq

/-- Non-vacuity: a history, queries in two blocks, an allocation through the accelerator and a reset. -/
example : NdtreeAccelerator.answers (runNdtreeHash 4 (0 : ℚ) [.set ⟨1, ![1, 2, 3]⟩ 5, .allocateBlock (fun _ => -1)])
    (.fresh (runNdtreeHash 4 0 [.set ⟨1, ![1, 2, 3]⟩ 5, .allocateBlock (fun _ => -1)]))
      [.get ⟨0, ![3, 4, 7]⟩, .alloc ⟨0, ![-3, -2, -1]⟩ 9, .reset, .get ⟨1, ![1, 2, 3]⟩] =
    some (OctreeQueryOp.direct (runNdtreeHash 4 0 [.set ⟨1, ![1, 2, 3]⟩ 5, .allocateBlock (fun _ => -1)])
      [.get ⟨0, ![3, 4, 7]⟩, .alloc ⟨0, ![-3, -2, -1]⟩ 9, .reset, .get ⟨1, ![1, 2, 3]⟩]) := by
  refine C25_octree_hash_partial 4 (by decide) (by decide) 0 _ ?_ _ ?_
  · intro op hop
    simp only [List.mem_cons, List.not_mem_nil, or_false] at hop
    rcases hop with rfl | rfl
    · exact ⟨by decide, by decide⟩
    · trivial
  · intro n hn
    simp only [OctreeQueryOp.nodes, List.mem_cons, List.not_mem_nil, or_false] at hn
    rcases hn with rfl | rfl | rfl <;> exact ⟨by decide, by decide, fun i => by revert i; decide⟩

/-- The accelerator's `getNode` is not the octree's `getNode`: where the octree has no such node and returns null, the accelerator
returns the nearest ancestor. -/
theorem C25_octree_getNode_fails :
    ∃ (m : NdtreeBlockHash 3 ℚ) (n : NdtreeIndex 3) (t : NTree (2 ^ 3) ℚ), m = runNdtreeHash 2 0 [.allocateBlock 0] ∧ NodeQuery 2 n ∧
      (m.getNode n).isNil = true ∧ NdtreeAccelerator.answers m (.fresh m) [.get n] = some (m, [t]) ∧ t.isNil = false := by
  refine ⟨_, ⟨0, fun _ => 0⟩, _, rfl, ⟨by decide, by decide, fun i => by revert i; decide⟩, by decide +kernel,
    C25_octree_hash_partial 2 (by decide) (by decide) 0 _ (by simp [NdtreeHashOp.Valid]) [.get ⟨0, fun _ => 0⟩] ?_, by decide +kernel⟩
  intro n hn
  simp only [OctreeQueryOp.nodes, List.mem_cons, List.not_mem_nil, or_false] at hn
  subst hn
  exact ⟨by decide, by decide, fun i => by revert i; decide⟩

/-- Nor does `getOrAllocateNode(n)` without further arguments do the same on both: the octree fills new nodes with its default value,
the accelerator with a value-initialised one. -/
theorem C25_octree_default_fails :
    ∃ (m : NdtreeBlockHash 3 ℚ) (n : NdtreeIndex 3) (r : NdtreeBlockHash 3 ℚ × List (NTree (2 ^ 3) ℚ)), m = runNdtreeHash 2 7 [] ∧ NodeQuery 2 n ∧
      (m.getOrAllocateNode n).getValue n = some 7 ∧
      NdtreeAccelerator.answers m (.fresh m) [.alloc n 0] = some r ∧ r.1.getValue n = some 0 := by
  refine ⟨_, ⟨0, fun _ => 0⟩, _, rfl, ⟨by decide, by decide, fun i => by revert i; decide⟩, by decide +kernel,
    C25_octree_hash_partial 2 (by decide) (by decide) 7 _ (by simp) [.alloc ⟨0, fun _ => 0⟩ 0] ?_, by decide +kernel⟩
  intro n hn
  simp only [OctreeQueryOp.nodes, List.mem_cons, List.not_mem_nil, or_false] at hn
  subst hn
  exact ⟨by decide, by decide, fun i => by revert i; decide⟩

end Wavemap
