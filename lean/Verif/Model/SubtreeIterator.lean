import Verif.Model.Ndtree
/-!
# Subtree iterators

Models `utils/iterate/subtree_iterator.h`, `utils/iterate/impl/subtree_iterator_inl.h`, and the two users in
`data_structure/ndtree/impl/ndtree_inl.h`: `size` and `prune`.

A node pointer is represented by the path of child numbers from the node the iteration starts at; `tree.descend path` is
the node it points to.
-/
namespace Wavemap
variable {n : Nat} {α : Type}

/-- Number of nodes (a bound on the number of iterations of loops over a tree). Auxiliary: the fuel for loops over subtree_iterator.h. -/
def NTree.numNodes : NTree n α → Nat
  | .nil => 0
  | .leaf _ => 1
  | .node _ ch => ((List.finRange n).map fun i => numNodes (ch i)).sum + 1

/-- The non-null children of a node, lowest child number first (subtree_iterator_inl.h:5-26, 76-98). -/
def childPtrs (t : NTree n α) (p : List (Fin n)) : List (List (Fin n)) :=
  (((List.finRange n).filter fun i => !((t.descend p).child i).isNil)).map fun i => p ++ [i]

/-- Preorder `operator++` with `enqueueNodeChildren` (subtree_iterator_inl.h:5-26): pop the front, push its children
to the front, last child first. -/
def preNext (t : NTree n α) : List (List (Fin n)) → List (List (Fin n))
  | [] => []
  | p :: q => childPtrs t p ++ q

/-- Breadth-first `operator++` with `enqueueNodeChildren` (subtree_iterator_inl.h:76-98): pop the front, push its
children to the back. -/
def bfsNext (t : NTree n α) : List (List (Fin n)) → List (List (Fin n))
  | [] => []
  | p :: q => q ++ childPtrs t p

/-- `for (node : Subtree(root))`: the visited pointers, given the deque; `none` if the loop has not ended after `fuel`
iterations. The iterator equals `end()` when its deque is empty (subtree_iterator.h:31-36). -/
def iterLoop (next : List (List (Fin n)) → List (List (Fin n))) :
    Nat → List (List (Fin n)) → Option (List (List (Fin n)))
  | _, [] => some []
  | 0, _ :: _ => none
  | fuel + 1, p :: q => (iterLoop next fuel (next (p :: q))).map (p :: ·)

/-- Constructor of the preorder and breadth-first iterators (subtree_iterator.h:62-66, 110-114). -/
def iterStart (t : NTree n α) : List (List (Fin n)) := if t.isNil then [] else [[]]

/-- The first child number `≥ k` with a non-null child (subtree_iterator_inl.h:33-50). -/
def firstChildFrom (s : NTree n α) (k : Nat) : Option (Fin n) :=
  (List.finRange n).find? fun j => decide (k ≤ j.val) && !(s.child j).isNil

/-- Postorder `enqueueNodeAndFirstChildren` (subtree_iterator_inl.h:53-74): the stack elements pushed for the node `s` at
`p`, front first. A stack element is a pointer with its `last_expanded_child_idx`. -/
def postEnqueue : NTree n α → List (Fin n) → List (List (Fin n) × Nat)
  | .nil, _ => []
  | .leaf _, p => [(p, n)]
  | .node _ ch, p =>
    match (List.finRange n).find? fun j => !(ch j).isNil with
    | some j => postEnqueue (ch j) (p ++ [j]) ++ [(p, j.val)]
    | none => []

/-- Postorder `operator++` after `pop_front` (subtree_iterator_inl.h:33-50). -/
def postAdvance (t : NTree n α) : List (List (Fin n) × Nat) → List (List (Fin n) × Nat)
  | [] => []
  | (p, k) :: rest =>
    match firstChildFrom (t.descend p) (k + 1) with
    | some j => postEnqueue ((t.descend p).child j) (p ++ [j]) ++ (p, j.val) :: rest
    | none => (p, n) :: rest

/-- `for (NodeT& node : Subtree<kDepthFirstPostorder>) body(node)`: visited pointers and final tree. The loop body may
modify the node it is given (ndtree_inl.h:28-45 with subtree_iterator_inl.h:33-74). -/
def postLoop (body : NTree n α → NTree n α) :
    Nat → NTree n α → List (List (Fin n) × Nat) → Option (List (List (Fin n)) × NTree n α)
  | _, t, [] => some ([], t)
  | 0, _, _ :: _ => none
  | fuel + 1, t, (p, _) :: rest =>
    let t' := t.modifyAt body p
    (postLoop body fuel t' (postAdvance t' rest)).map fun r => (p :: r.1, r.2)

/-- The whole postorder loop, starting from `SubtreeIterator(root_node)` (subtree_iterator.h:81-85). -/
def postorder (body : NTree n α → NTree n α) (fuel : Nat) (t : NTree n α) :=
  postLoop body fuel t (postEnqueue t [])

/-- `NdtreeNode::empty` (ndtree_node_inl.h:10-13), where `nz` is `data::is_nonzero`. -/
def NTree.emptyNode (nz : α → Bool) : NTree n α → Bool
  | .nil => false
  | .leaf a => !nz a
  | .node _ _ => false

/-- The loop body of `Ndtree::prune` (ndtree_inl.h:28-45). -/
def pruneBody (nz : α → Bool) : NTree n α → NTree n α
  | .nil => .nil
  | .leaf a => .leaf a
  | .node a ch =>
    if (List.finRange n).any fun i => !(ch i).isNil && !(ch i).emptyNode nz then
      .node a fun i => if (ch i).emptyNode nz then .nil else ch i
    else .leaf a

end Wavemap
