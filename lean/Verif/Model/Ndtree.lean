import Verif.Model.NdtreeIndex
/-!
# The Ndtree container

Models `library/cpp/include/wavemap/core/data_structure/ndtree/{ndtree.h,ndtree_node.h}` and
`impl/{ndtree_inl.h,ndtree_node_inl.h}`.
-/
namespace Wavemap

/-- A pointer to an `NdtreeNode` (ndtree_node.h:12-56), by value. `nil` is the null pointer, `leaf a` a
node without a children array (`hasChildrenArray() == false`), `node a ch` a node with an allocated
children array whose entries may be null. `n` is `kNumChildren`. -/
inductive NTree (n : Nat) (α : Type) : Type where
  | nil : NTree n α
  | leaf (data : α) : NTree n α
  | node (data : α) (ch : Fin n → NTree n α) : NTree n α

namespace NTree
variable {n : Nat} {α β : Type}

/-- Whether the pointer is null (ndtree_node_inl.h:53-68). -/
def isNil : NTree n α → Bool
  | nil => true
  | _ => false

/-- `NdtreeNode::data()` (ndtree_node.h:30-31) behind a pointer; `none` for null. -/
def data? : NTree n α → Option α
  | nil => none
  | leaf a => some a
  | node a _ => some a

/-- `NdtreeNode::hasChildrenArray` (ndtree_node.h:33). -/
def hasChildrenArray : NTree n α → Bool
  | node _ _ => true
  | _ => false

/-- `NdtreeNode::getChild` (ndtree_node_inl.h:70-88). -/
def child (t : NTree n α) (i : Fin n) : NTree n α :=
  match t with
  | node _ ch => ch i
  | _ => nil

/-- `NdtreeNode::hasChild` (ndtree_node_inl.h:53-57). -/
def hasChild (t : NTree n α) (i : Fin n) : Bool := !(t.child i).isNil

/-- `NdtreeNode::hasAtLeastOneChild` (ndtree_node_inl.h:40-51). -/
def hasAtLeastOneChild (t : NTree n α) : Bool :=
  t.hasChildrenArray && (List.finRange n).any fun i => !(t.child i).isNil

/-- Assignment through `data()` (ndtree_node.h:30); no effect through a null pointer (never done). -/
def setData (t : NTree n α) (a : α) : NTree n α :=
  match t with
  | nil => nil
  | leaf _ => leaf a
  | node _ ch => node a ch

/-- Overwrite one entry of the children array, allocating the array if needed
(the array part of ndtree_node_inl.h:90-108). -/
def setChild (t : NTree n α) (i : Fin n) (c : NTree n α) : NTree n α :=
  match t with
  | nil => nil
  | leaf a => node a fun j => if j = i then c else nil
  | node a ch => node a fun j => if j = i then c else ch j

/-- `NdtreeNode::deleteChildrenArray` (ndtree_node.h:35). -/
def deleteChildrenArray (t : NTree n α) : NTree n α :=
  match t with
  | nil => nil
  | leaf a => leaf a
  | node a _ => leaf a

/-- `NdtreeNode::eraseChild` (ndtree_node_inl.h:59-68): resets the pointer if there is an array; the
array itself stays allocated. Returns whether there was an array. -/
def eraseChild (t : NTree n α) (i : Fin n) : NTree n α × Bool :=
  match t with
  | nil => (nil, false)
  | leaf a => (leaf a, false)
  | node a ch => (node a fun j => if j = i then nil else ch j, true)

/-- `NdtreeNode::getOrAllocateChild` (ndtree_node_inl.h:90-108): the child after the call. -/
def getOrAllocateChild (t : NTree n α) (i : Fin n) (dflt : α) : NTree n α :=
  match t.child i with
  | nil => leaf dflt
  | c => c

/-- Follow child pointers from the root (the loop of `Ndtree::getNode`, ndtree_inl.h:75-87): the
list holds the relative child numbers for `node_height = max_height_, max_height_-1, ...`. The loop stops
at a null pointer. -/
def descend : NTree n α → List (Fin n) → NTree n α
  | t, [] => t
  | t, i :: p => descend (t.child i) p

/-- Apply `f` to the node at the end of a path (dereferencing the pointer returned by `getNode`), leaving
the tree unchanged if the pointer is null. Auxiliary: writing through the pointer that ndtree_inl.h:75-87 returns. -/
def modifyAt (f : NTree n α → NTree n α) : NTree n α → List (Fin n) → NTree n α
  | nil, _ => nil
  | t, [] => f t
  | leaf a, _ :: _ => leaf a
  | node a ch, i :: p => node a fun j => if j = i then modifyAt f (ch i) p else ch j

/-- The loop of `Ndtree::getOrAllocateNode` (ndtree_inl.h:89-105): allocate all nodes on the path. -/
def allocPath (dflt : α) : NTree n α → List (Fin n) → NTree n α
  | t, [] => t
  | t, i :: p => t.setChild i (allocPath dflt (t.getOrAllocateChild i dflt) p)

/-- The loop of `Ndtree::getNodeOrAncestor` (ndtree_inl.h:115-132): deepest non-null node on the path,
with the number of levels that remain below it. -/
def descendOrAncestor : NTree n α → List (Fin n) → NTree n α × Nat
  | t, [] => (t, 0)
  | t, i :: p =>
    match t.child i with
    | nil => (t, p.length + 1)
    | c => descendOrAncestor c p

end NTree

/-- The relative child numbers read from a Morton code for `node_height = H, H-1, ..., h+1`
(`computeRelativeChildIndex(morton_code, node_height)` in the loops of ndtree_inl.h:75-132). -/
def mortonPath (d morton : Nat) : (H h : Nat) → List (Fin (2 ^ d))
  | 0, _ => []
  | H + 1, h =>
    if h < H + 1 then
      ⟨NdtreeIndex.relativeChildOfMorton d morton (H + 1) % 2 ^ d, Nat.mod_lt _ (Nat.two_pow_pos d)⟩
        :: mortonPath d morton H h
    else []

/-- The path followed for a node index: `nodeIndexToMorton` then `mortonPath` (ndtree_inl.h:75-132). -/
def nodePath {d : Nat} (H : Nat) (index : NdtreeIndex d) : List (Fin (2 ^ d)) :=
  mortonPath d (nodeIndexToMorton index) H index.height.toNat

/-- `Ndtree` (ndtree.h): maximum height and root node (never null). -/
structure Ndtree (d : Nat) (α : Type) where
  maxHeight : Nat
  root : NTree (2 ^ d) α

namespace Ndtree
variable {d : Nat} {α : Type}

/-- Constructor (ndtree_inl.h:12-17); `CHECK_LE(max_height_, kMaxTreeHeight)` is the precondition. -/
def create (maxHeight : Nat) (rootData : α) : Ndtree d α := ⟨maxHeight, .leaf rootData⟩

/-- `getNode` (ndtree_inl.h:69-87). -/
def getNode (t : Ndtree d α) (index : NdtreeIndex d) : NTree (2 ^ d) α :=
  t.root.descend (nodePath t.maxHeight index)

/-- `getOrAllocateNode` (ndtree_inl.h:89-105): the tree after the call. -/
def getOrAllocateNode (t : Ndtree d α) (index : NdtreeIndex d) (dflt : α) : Ndtree d α :=
  { t with root := t.root.allocPath dflt (nodePath t.maxHeight index) }

/-- `getNode(index)->data() = a` if the node exists (ndtree_inl.h:75-87, ndtree_node.h:30-31). -/
def setNodeData (t : Ndtree d α) (index : NdtreeIndex d) (a : α) : Ndtree d α :=
  { t with root := t.root.modifyAt (fun s => s.setData a) (nodePath t.maxHeight index) }

/-- `eraseNode` (ndtree_inl.h:59-67). -/
def eraseNode (t : Ndtree d α) (index : NdtreeIndex d) : Ndtree d α × Bool :=
  let parentPath := nodePath t.maxHeight index.computeParentIndex
  let c : Fin (2 ^ d) :=
    ⟨index.computeRelativeChildIndex % 2 ^ d, Nat.mod_lt _ (Nat.two_pow_pos d)⟩
  ({ t with root := t.root.modifyAt (fun s => (s.eraseChild c).1) parentPath },
    ((t.root.descend parentPath).eraseChild c).2)

/-- `getNodeOrAncestor` (ndtree_inl.h:115-132): the node and its height. -/
def getNodeOrAncestor (t : Ndtree d α) (index : NdtreeIndex d) : NTree (2 ^ d) α × Int :=
  let r := t.root.descendOrAncestor (nodePath t.maxHeight index)
  (r.1, index.height + r.2)

end Ndtree
end Wavemap
