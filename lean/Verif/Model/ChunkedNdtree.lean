import Verif.Model.Ndtree
/-!
# The ChunkedNdtree container

Models `library/cpp/include/wavemap/core/data_structure/chunked_ndtree/{chunked_ndtree.h,
chunked_ndtree_chunk.h,chunked_ndtree_node_address.h}` and `impl/{chunked_ndtree_inl.h,
chunked_ndtree_chunk_inl.h,chunked_ndtree_node_address_inl.h}`.

A chunk stores the nodes of `chunk_height` consecutive tree levels in one array, and owns an array of child
chunks. Here a chunk is named by the slots of the child arrays that lead to it from the root chunk; a whole
tree is a partial function from such names to chunks. Destroying a chunk (resetting its `unique_ptr`)
removes it together with all chunks it owns, that is, all names it is a prefix of. Parameters: `d` is
`dim`, `c` is `chunk_height` (`kHeight`), `zero` is the value-initialised payload `DataT{}`.
-/
namespace Wavemap

/-- `ChunkedNdtreeChunk` (chunked_ndtree_chunk.h:14-77): `node_data_` and `node_has_at_least_one_child_`.
The arrays have `kNumInnerNodes` entries; that no other entry is ever used is theorem
`C14_addresses_in_bounds`. -/
structure Chunk (α : Type) where
  data : Nat → α
  bit : Nat → Bool

/-- `kNumInnerNodes` (chunked_ndtree_chunk.h:19-20). -/
def Chunk.numInnerNodes (d c : Nat) : Nat := numTotalNodes d c

/-- `kNumChildren` (chunked_ndtree_chunk.h:21-22). -/
def Chunk.numChildren (d c : Nat) : Nat := numLeafNodes d (c + 1)

/-- A default-constructed chunk (chunked_ndtree_chunk.h:27, 74-75). -/
def Chunk.fresh {α : Type} (zero : α) : Chunk α := ⟨fun _ => zero, fun _ => false⟩

/-- All chunks of a tree, by name.
The C++ chunks own their child chunks through pointers (chunked_ndtree_chunk.h:27-75); a name is the path of the chunk from the root chunk. -/
abbrev Chunks (α : Type) := List Nat → Option (Chunk α)

/-- `ChunkedNdtreeNodeRef` (chunked_ndtree_node_address.h): the chunk, `relative_node_depth_` and
`level_traversal_distance_`. A null `ChunkedNdtreeNodePtr` is `none`. -/
structure ChunkNode where
  chunk : List Nat
  depth : Nat
  dist : Nat
deriving DecidableEq

namespace ChunkNode

/-- `getRootNode` (chunked_ndtree.h:53). -/
def root : ChunkNode := ⟨[], 0, 0⟩

/-- `computeRelativeNodeIndex` (chunked_ndtree_node_address_inl.h:177-182). -/
def index (d : Nat) (r : ChunkNode) : Nat := numTotalNodesFast d r.depth + r.dist

/-- `computeChildLevelTraversalDistance` (chunked_ndtree_node_address_inl.h:184-190). -/
def childDist (d : Nat) (r : ChunkNode) (i : Fin (2 ^ d)) : Nat := (r.dist <<< d) ||| i.val

end ChunkNode

namespace Chunks
variable {α : Type}

/-- Chunks of a new or cleared tree: a default root chunk (chunked_ndtree.h:62,
`clear`: chunked_ndtree.h:33 with chunked_ndtree_chunk_inl.h:15-20). -/
def fresh (zero : α) : Chunks α := fun k => if k = [] then some (Chunk.fresh zero) else none

/-- Apply a function to one chunk (writing through a reference into it). Auxiliary; used for chunked_ndtree_chunk_inl.h:47-61, 148-161. -/
def modifyChunk (s : Chunks α) (k : List Nat) (f : Chunk α → Chunk α) : Chunks α :=
  fun k' => if k' = k then (s k').map f else s k'

/-- `data()` read (chunked_ndtree_node_address_inl.h:98-101, chunked_ndtree_chunk_inl.h:47-61). A reference always
points into an existing chunk, so the value for a missing chunk is irrelevant. -/
def data (zero : α) (d : Nat) (s : Chunks α) (r : ChunkNode) : α :=
  match s r.chunk with
  | none => zero
  | some k => k.data (r.index d)

/-- `data() = a` (chunked_ndtree_node_address_inl.h:98-101, chunked_ndtree_chunk_inl.h:47-61). -/
def setData (d : Nat) (s : Chunks α) (r : ChunkNode) (a : α) : Chunks α :=
  s.modifyChunk r.chunk fun k => { k with data := fun j => if j = r.index d then a else k.data j }

/-- `hasAtLeastOneChild()` (chunked_ndtree_node_address_inl.h:103-106, chunked_ndtree_chunk_inl.h:148-161). -/
def hasAtLeastOneChild (d : Nat) (s : Chunks α) (r : ChunkNode) : Bool :=
  match s r.chunk with
  | none => false
  | some k => k.bit (r.index d)

/-- `hasAtLeastOneChild() = b` (chunked_ndtree_node_address_inl.h:103-106, chunked_ndtree_chunk_inl.h:148-161). -/
def setHasAtLeastOneChild (d : Nat) (s : Chunks α) (r : ChunkNode) (b : Bool) : Chunks α :=
  s.modifyChunk r.chunk fun k => { k with bit := fun j => if j = r.index d then b else k.bit j }

/-- `ChunkedNdtreeNodeRef::getChild` (chunked_ndtree_node_address_inl.h:141-157), with
`ChunkedNdtreeChunk::getChild` (chunked_ndtree_chunk_inl.h:89-111). -/
def getChild (d c : Nat) (s : Chunks α) (r : ChunkNode) (i : Fin (2 ^ d)) : Option ChunkNode :=
  if !s.hasAtLeastOneChild d r then none
  else if r.depth + 1 = c then
    match s (r.chunk ++ [r.childDist d i]) with
    | none => none
    | some _ => some ⟨r.chunk ++ [r.childDist d i], 0, 0⟩
  else some ⟨r.chunk, r.depth + 1, r.childDist d i⟩

/-- `ChunkedNdtreeNodeRef::getOrAllocateChild` without default arguments
(chunked_ndtree_node_address_inl.h:159-175), with `ChunkedNdtreeChunk::getOrAllocateChild`
(chunked_ndtree_chunk_inl.h:113-132). Chunks only have a default constructor, so the call does not compile with
arguments. -/
def getOrAllocateChild (zero : α) (d c : Nat) (s : Chunks α) (r : ChunkNode) (i : Fin (2 ^ d)) :
    Chunks α × ChunkNode :=
  let s := s.setHasAtLeastOneChild d r true
  if r.depth + 1 = c then
    let k := r.chunk ++ [r.childDist d i]
    (fun k' => if k' = k then some ((s k').getD (Chunk.fresh zero)) else s k', ⟨k, 0, 0⟩)
  else (s, ⟨r.chunk, r.depth + 1, r.childDist d i⟩)

/-- `ChunkedNdtreeChunk::eraseChild` (chunked_ndtree_chunk_inl.h:79-87) for all slots in `[lo, hi)`: these
chunks and everything they own are destroyed. -/
def eraseChunks (s : Chunks α) (k : List Nat) (lo hi : Nat) : Chunks α :=
  fun k' => if (k'.take k.length = k ∧ ∃ m, k'[k.length]? = some m ∧ lo ≤ m ∧ m < hi) then none else s k'

/-- Lines 129-133 of chunked_ndtree_node_address_inl.h for all `level_child_idx` in `[lo, hi)`. -/
def clearLevel (zero : α) (d : Nat) (s : Chunks α) (k : List Nat) (childDepth lo hi : Nat) : Chunks α :=
  let offset := numTotalNodesFast d childDepth
  s.modifyChunk k fun ck =>
    { data := fun j => if offset + lo ≤ j ∧ j < offset + hi then zero else ck.data j
      bit := fun j => if offset + lo ≤ j ∧ j < offset + hi then false else ck.bit j }

/-- The outer loop of `eraseChild` (chunked_ndtree_node_address_inl.h:122-138); `n` is the number of
iterations left, `kHeight - child_depth + 1`. -/
def eraseLevels (zero : α) (d c : Nat) (k : List Nat) : (n childDepth lo hi : Nat) → Chunks α → Chunks α
  | 0, _, _, _, s => s
  | n + 1, childDepth, lo, hi, s =>
    eraseLevels zero d c k n (childDepth + 1) (lo <<< d) (hi <<< d)
      (if childDepth = c then s.eraseChunks k lo hi else s.clearLevel zero d k childDepth lo hi)

/-- `ChunkedNdtreeNodeRef::eraseChild` (chunked_ndtree_node_address_inl.h:114-139). The node's own flag is not
reset. -/
def eraseChild (zero : α) (d c : Nat) (s : Chunks α) (r : ChunkNode) (i : Fin (2 ^ d)) : Chunks α :=
  if !s.hasAtLeastOneChild d r then s
  else eraseLevels zero d c r.chunk (c - r.depth) (r.depth + 1) (r.childDist d i) (r.childDist d i + 1) s

/-- The loop of `getNode` (chunked_ndtree_inl.h:78-106). -/
def descend (d c : Nat) (s : Chunks α) : ChunkNode → List (Fin (2 ^ d)) → Option ChunkNode
  | r, [] => some r
  | r, i :: p =>
    match s.getChild d c r i with
    | none => none
    | some r' => descend d c s r' p

/-- The loop of `getOrAllocateNode` (chunked_ndtree_inl.h:108-124). -/
def allocPath (zero : α) (d c : Nat) : Chunks α → ChunkNode → List (Fin (2 ^ d)) → Chunks α × ChunkNode
  | s, r, [] => (s, r)
  | s, r, i :: p =>
    let a := s.getOrAllocateChild zero d c r i
    allocPath zero d c a.1 a.2 p

/-- The loop of `getNodeOrAncestor` (chunked_ndtree_inl.h:126-167): the node and the number of levels that
remain below it. -/
def descendOrAncestor (d c : Nat) (s : Chunks α) : ChunkNode → List (Fin (2 ^ d)) → ChunkNode × Nat
  | r, [] => (r, 0)
  | r, i :: p =>
    match s.getChild d c r i with
    | none => (r, p.length + 1)
    | some r' => descendOrAncestor d c s r' p

end Chunks

/-- `ChunkedNdtree` (chunked_ndtree.h:15-63): `max_height_` and the chunks. -/
structure ChunkedNdtree (α : Type) where
  maxHeight : Nat
  chunks : Chunks α

namespace ChunkedNdtree
variable {α : Type}

/-- Constructor (chunked_ndtree_inl.h:12-17): `max_height` is rounded up to a multiple of the chunk height
(`int_math::div_round_up`). -/
def create (zero : α) (c maxHeight : Nat) : ChunkedNdtree α := ⟨c * divRoundUp maxHeight c, .fresh zero⟩

/-- `clear` (chunked_ndtree.h:33). -/
def clear (zero : α) (t : ChunkedNdtree α) : ChunkedNdtree α := { t with chunks := .fresh zero }

/-- `getNode` (chunked_ndtree_inl.h:78-106). -/
def getNode (d c : Nat) (t : ChunkedNdtree α) (index : NdtreeIndex d) : Option ChunkNode :=
  t.chunks.descend d c .root (nodePath t.maxHeight index)

/-- `getOrAllocateNode` (chunked_ndtree_inl.h:108-124): the tree after the call and the node. -/
def getOrAllocateNode (zero : α) (d c : Nat) (t : ChunkedNdtree α) (index : NdtreeIndex d) :
    ChunkedNdtree α × ChunkNode :=
  let r := t.chunks.allocPath zero d c .root (nodePath t.maxHeight index)
  ({ t with chunks := r.1 }, r.2)

/-- `getNodeOrAncestor` (chunked_ndtree_inl.h:126-167): the node and its height. -/
def getNodeOrAncestor (d c : Nat) (t : ChunkedNdtree α) (index : NdtreeIndex d) : ChunkNode × Int :=
  let r := t.chunks.descendOrAncestor d c .root (nodePath t.maxHeight index)
  (r.1, index.height + r.2)

end ChunkedNdtree
end Wavemap
