import Verif.Model.Ndtree
import Verif.Model.SpatialHash
/-!
# Hashed octrees

Models `library/cpp/include/wavemap/core/data_structure/{ndtree_block_hash.h,impl/ndtree_block_hash_inl.h}`.

`eraseNode` (ndtree_block_hash_inl.h:62-70), the non-const `getNodeOrAncestor` (99-104) and the non-const `forEachLeaf` (190-221)
do not compile when instantiated and are not modelled.
-/
namespace Wavemap
open NdtreeIndex

/-- `NdtreeBlockHash<CellDataT, dim>` (ndtree_block_hash.h:11-105). -/
structure NdtreeBlockHash (d : Nat) (α : Type) where
  maxHeight : Nat
  defaultValue : α
  blocks : SpatialHash d (Ndtree d α)

namespace NdtreeBlockHash
variable {d : Nat} {α : Type}

/-- Constructor (ndtree_block_hash.h:26-28). -/
def create (maxHeight : Nat) (dv : α) : NdtreeBlockHash d α := ⟨maxHeight, dv, []⟩

/-- `indexToBlockIndex` (ndtree_block_hash_inl.h:261-268). -/
def indexToBlockIndex (m : NdtreeBlockHash d α) (n : NdtreeIndex d) : Index d :=
  fun i => divExp2Floor (n.position i) ((m.maxHeight : Int) - n.height).toNat

/-- `indexToCellIndex` (ndtree_block_hash_inl.h:270-278). -/
def indexToCellIndex (m : NdtreeBlockHash d α) (n : NdtreeIndex d) : NdtreeIndex d :=
  ⟨n.height, fun i => divExp2FloorRemainder (n.position i) ((m.maxHeight : Int) - n.height).toNat⟩

/-- `cellAndBlockIndexToIndex` (ndtree_block_hash_inl.h:280-290). -/
def cellAndBlockIndexToIndex (m : NdtreeBlockHash d α) (block : Index d) (cell : NdtreeIndex d) : NdtreeIndex d :=
  ⟨cell.height, fun i => cell.position i + (exp2 ((m.maxHeight : Int) - cell.height).toNat : Nat) * block i⟩

/-- `getOrAllocateBlock` (ndtree_block_hash_inl.h:48-54). -/
def getOrAllocateBlock (m : NdtreeBlockHash d α) (b : Index d) : NdtreeBlockHash d α :=
  { m with blocks := m.blocks.getOrAllocateBlock b (.create m.maxHeight m.defaultValue) }

/-- `eraseBlock` (ndtree_block_hash_inl.h:23-27). -/
def eraseBlock (m : NdtreeBlockHash d α) (b : Index d) : NdtreeBlockHash d α := { m with blocks := m.blocks.eraseBlock b }

/-- `clear` (ndtree_block_hash.h:30). -/
def clear (m : NdtreeBlockHash d α) : NdtreeBlockHash d α := { m with blocks := [] }

/-- `getNode` (ndtree_block_hash_inl.h:72-87). -/
def getNode (m : NdtreeBlockHash d α) (n : NdtreeIndex d) : NTree (2 ^ d) α :=
  match m.blocks.getBlock (m.indexToBlockIndex n) with
  | none => .nil
  | some b => b.getNode (m.indexToCellIndex n)

/-- `getOrAllocateNode` (ndtree_block_hash_inl.h:89-97): the data structure after the call. -/
def getOrAllocateNode (m : NdtreeBlockHash d α) (n : NdtreeIndex d) : NdtreeBlockHash d α :=
  let k := m.indexToBlockIndex n
  let m' := m.getOrAllocateBlock k
  { m' with blocks := m'.blocks.modifyBlock k fun b => b.getOrAllocateNode (m.indexToCellIndex n) m.defaultValue }

/-- `getOrAllocateValue(n) = v` (ndtree_block_hash_inl.h:139-143, 89-97). -/
def setValue (m : NdtreeBlockHash d α) (n : NdtreeIndex d) (v : α) : NdtreeBlockHash d α :=
  let m' := m.getOrAllocateNode n
  { m' with blocks := m'.blocks.modifyBlock (m.indexToBlockIndex n) fun b => b.setNodeData (m.indexToCellIndex n) v }

/-- `getNodeOrAncestor` (ndtree_block_hash_inl.h:106-116): the node and its height. -/
def getNodeOrAncestor (m : NdtreeBlockHash d α) (n : NdtreeIndex d) : NTree (2 ^ d) α × Int :=
  match m.blocks.getBlock (m.indexToBlockIndex n) with
  | none => (.nil, m.maxHeight)
  | some b => b.getNodeOrAncestor (m.indexToCellIndex n)

/-- `getValue` (ndtree_block_hash_inl.h:124-137). -/
def getValue (m : NdtreeBlockHash d α) (n : NdtreeIndex d) : Option α := (m.getNode n).data?

/-- `getValueOrDefault` (ndtree_block_hash_inl.h:161-168). -/
def getValueOrDefault (m : NdtreeBlockHash d α) (n : NdtreeIndex d) : α :=
  match m.getValue n with
  | some v => v
  | none => m.defaultValue

/-- The leaves below a node at `index` (ndtree_block_hash_inl.h:238-257). The explicit stack visits the same nodes in another order;
the order of the visitor calls is not modelled. -/
def nodeLeaves : NTree (2 ^ d) α → NdtreeIndex d → List (NdtreeIndex d × α)
  | .nil, _ => []
  | .leaf a, index => [(index, a)]
  | .node a ch, index =>
    if (NTree.node a ch).hasAtLeastOneChild then
      (List.finRange (2 ^ d)).flatMap fun c =>
        if (ch c).isNil then [(index.computeChildIndex c.val, a)] else nodeLeaves (ch c) (index.computeChildIndex c.val)
    else [(index, a)]

/-- `forEachLeaf` (ndtree_block_hash_inl.h:223-259, the const overload): the arguments of the visitor calls. -/
def forEachLeaf (m : NdtreeBlockHash d α) : List (NdtreeIndex d × α) :=
  m.blocks.flatMap fun e => nodeLeaves e.2.root ⟨m.maxHeight, e.1⟩

end NdtreeBlockHash
end Wavemap
