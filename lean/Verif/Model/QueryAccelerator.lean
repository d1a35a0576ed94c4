import Verif.Model.Wavelet
import Verif.Model.ChunkedWavelet
import Verif.Model.NdtreeBlockHash
/-!
# Query accelerators

Models `library/cpp/include/wavemap/core/utils/query/{query_accelerator.h,impl/query_accelerator_inl.h}` and
`library/cpp/src/core/utils/query/query_accelerator.cc`.

The accelerators keep pointers into a data structure. For the read-only ones (the wavelet maps, `DenseBlockHash`) the structure
does not change while the accelerator is used, so a pointer to a node is modelled by the node itself, null by `none`. For the
ones that allocate (`SpatialHash`, `NdtreeBlockHash`) a pointer is modelled by the address of its target: the block index and
the path from the root.

The stacks are `std::array`s with `morton::kMaxTreeHeight<3> = 20` elements. An access beyond their end is undefined behaviour,
and so is the outcome `none` here, as is a failed `CHECK_NOTNULL`.
-/
namespace Wavemap
open NdtreeIndex Haar

/-- `IndexType::Constant(std::numeric_limits<IndexElement>::max())` (query_accelerator.h:43-44, 70-71, 101-102, 155-156). -/
def noBlockIndex {d : Nat} : Index d := fun _ => 2147483647

/-- Size of the stacks (query_accelerator.h:107, 152-153, 205-206; classified_map.h:133). -/
def queryStackSize : Nat := Morton.kMaxTreeHeight 3

/-- `stack[i]` read. Auxiliary for query_accelerator.cc:15-79 and query_accelerator_inl.h. -/
def stackAt {α : Type} (s : Nat → α) (i : Nat) : Option α := if i < queryStackSize then some (s i) else none

/-- `stack[i] = a`. Auxiliary for query_accelerator.cc:15-79 and query_accelerator_inl.h. -/
def stackPut {α : Type} (s : Nat → α) (i : Nat) (a : α) : Option (Nat → α) :=
  if i < queryStackSize then some fun j => if j = i then a else s j else none

/-- `computeRelativeChildIndex(morton, parent_height)` as an array index. (ndtree_index.h; used at query_accelerator.cc:66-76, 141-151.) -/
def mortonChild (morton parentHeight : Nat) : Fin (2 ^ 3) :=
  ⟨relativeChildOfMorton 3 morton parentHeight % 2 ^ 3, Nat.mod_lt _ (Nat.two_pow_pos 3)⟩

/-! ## Wavelet maps

The accelerators of `HashedWaveletOctree` and `HashedChunkedWaveletOctree` are the same text for different node types. -/

/-- What the accelerator uses of a wavelet map with nodes of type `ν` (query_accelerator.cc:6-154). -/
structure WaveletNodes (ν : Type) where
  /-- `node->getChild(i)` -/
  child : ν → Fin (2 ^ 3) → Option ν
  /-- `node->data()` -/
  data : ν → Details 3
  /-- `map_.getTreeHeight()` -/
  treeHeight : Nat
  /-- `map_.indexToBlockIndex(index)` -/
  blockIndex : NdtreeIndex 3 → Index 3
  /-- `map_.getBlock(index)`: its root node and root scale. -/
  getBlock : Index 3 → Option (ν × ℚ)

/-- Member variables of `QueryAccelerator<HashedWaveletOctree>` (query_accelerator.h:149-158) and
`QueryAccelerator<HashedChunkedWaveletOctree>` (202-211). -/
structure WaveletAccelerator (ν : Type) where
  nodeStack : Nat → Option ν
  valueStack : Nat → ℚ
  blockIndex : Index 3
  mortonCode : Nat
  height : Nat

namespace WaveletAccelerator
variable {ν : Type}

/-- A new accelerator (query_accelerator.h:149-158, 202-211), and the state after `reset` (query_accelerator.cc:6-13, 81-88).
`morton_code_` is `2^64 - 1`. -/
def fresh (w : WaveletNodes ν) : WaveletAccelerator ν := ⟨fun _ => none, fun _ => 0, noBlockIndex, 2 ^ 64 - 1, w.treeHeight⟩

/-- The loop that walks down the tree (query_accelerator.cc:66-76, 141-151), from `height_ = h`. -/
def walk (w : WaveletNodes ν) (target : Nat) : (h : Nat) → WaveletAccelerator ν → Option (WaveletAccelerator ν)
  | h, a =>
    match stackAt a.nodeStack h with
    | none => none
    | some none => some { a with height := h }
    | some (some parent) =>
      if h = target then some { a with height := h }
      else
        match h with
        | 0 => none -- `height_` becomes negative
        | h' + 1 =>
          match stackAt a.valueStack (h' + 1) with
          | none => none
          | some v =>
            let c := mortonChild a.mortonCode (h' + 1)
            match stackPut a.valueStack h' (backwardSingleChild 3 ⟨v, w.data parent⟩ c),
                stackPut a.nodeStack h' (w.child parent c) with
            | some vs, some ns => walk w target h' { a with valueStack := vs, nodeStack := ns }
            | _, _ => none

/-- Lines 56-62 (131-137) of query_accelerator.cc: load the node at `height_` if necessary. -/
def load (w : WaveletNodes ν) (previousHeight : Nat) (a : WaveletAccelerator ν) : Option (WaveletAccelerator ν) :=
  if previousHeight ≠ w.treeHeight ∧ a.height = previousHeight then
    match stackAt a.nodeStack (a.height + 1) with
    | some (some parent) =>
      (stackPut a.nodeStack a.height (w.child parent (mortonChild a.mortonCode (a.height + 1)))).map fun ns =>
        { a with nodeStack := ns }
    | _ => none
  else some a

/-- Lines 51-78 (126-153) of query_accelerator.cc: everything after the block has been found and `height_` set.
`previousHeight` is `previous_height`. -/
def finish (w : WaveletNodes ν) (target previousHeight : Nat) (a : WaveletAccelerator ν) : Option (ℚ × WaveletAccelerator ν) :=
  if a.height = target then (stackAt a.valueStack a.height).map fun v => (v, a)
  else
    match load w previousHeight a with
    | none => none
    | some a =>
      match walk w target a.height a with
      | none => none
      | some a => (stackAt a.valueStack a.height).map fun v => (v, a)

/-- `getCellValue(OctreeIndex)` (query_accelerator.cc:15-79, 90-154): the result and the accelerator afterwards. -/
def getCellValue (w : WaveletNodes ν) (a : WaveletAccelerator ν) (n : NdtreeIndex 3) : Option (ℚ × WaveletAccelerator ν) :=
  let b := w.blockIndex n
  let morton := nodeIndexToMorton n
  let a' : WaveletAccelerator ν := { a with blockIndex := b, mortonCode := morton }
  if b = a.blockIndex then
    match stackAt a.nodeStack w.treeHeight with
    | none => none
    | some none => some (0, a')
    | some (some _) =>
      finish w n.height.toNat a.height
        { a' with height := lastCommonAncestorHeight 3 morton n.height.toNat a.mortonCode a.height }
  else
    match w.getBlock b with
    | some (root, scale) =>
      match stackPut a.nodeStack w.treeHeight (some root), stackPut a.valueStack w.treeHeight scale with
      | some ns, some vs =>
        finish w n.height.toNat a.height { a' with nodeStack := ns, valueStack := vs, height := w.treeHeight }
      | _, _ => none
    | none =>
      match stackPut a.nodeStack w.treeHeight none, stackPut a.valueStack w.treeHeight 0 with
      | some ns, some vs => some (0, { a' with nodeStack := ns, valueStack := vs, height := w.treeHeight })
      | _, _ => none

end WaveletAccelerator

/-- The nodes of a `HashedWaveletOctree` (`node_stack_` holds `Node const*`) (query_accelerator.h:149-158). -/
def HashedWaveletOctree.nodes (m : HashedWaveletOctree) : WaveletNodes WTree where
  child t c := if (t.child c).isNil then none else some (t.child c)
  data := WTree.details
  treeHeight := m.config.treeHeight
  blockIndex := m.nodeToBlockIndex
  getBlock b := (m.blocks.getBlock b).map fun b => (b.root, b.rootScale)

/-- The nodes of a `HashedChunkedWaveletOctree`: a node address refers to the chunks of its block (query_accelerator.h:202-211). -/
def HashedChunkedWaveletOctree.nodes (m : HashedChunkedWaveletOctree) : WaveletNodes (WChunks × ChunkNode) where
  child x c := (x.1.getChild 3 chunkHeight x.2 c).map fun r => (x.1, r)
  data x := WChunks.details x.1 x.2
  treeHeight := m.config.treeHeight
  blockIndex := m.nodeToBlockIndex
  getBlock b := (m.blocks.getBlock b).map fun b => ((b.chunks, ChunkNode.root), b.rootScale)

/-! ## Dense block hash -/

/-- Member variables of `QueryAccelerator<DenseBlockHash>` (query_accelerator.h:68-72). -/
structure DenseAccelerator (d : Nat) (α : Type) where
  blockIndex : Index d
  block : Option (DenseGrid α)

namespace DenseAccelerator
variable {d : Nat} {α : Type}

/-- A new accelerator, and the state after `reset` (query_accelerator_inl.h:37-41). -/
def fresh : DenseAccelerator d α := ⟨noBlockIndex, none⟩

/-- `getBlock` (query_accelerator_inl.h:43-53). -/
def getBlock {log2 : Nat} (m : DenseBlockHash d log2 α) (a : DenseAccelerator d α) (b : Index d) :
    Option (DenseGrid α) × DenseAccelerator d α :=
  let a := if b ≠ a.blockIndex then ⟨b, m.blockMap.getBlock b⟩ else a
  (a.block, a)

/-- `getValue` (query_accelerator_inl.h:55-65). -/
def getValue {log2 : Nat} (m : DenseBlockHash d log2 α) (a : DenseAccelerator d α) (i : Index d) :
    Option α × DenseAccelerator d α :=
  let r := getBlock m a (indexToBlockIndex log2 i)
  (r.1.map fun g => g.at log2 (indexToCellIndex log2 i), r.2)

end DenseAccelerator

/-! ## Spatial hash -/

/-- Member variables of `QueryAccelerator<SpatialHash>` (query_accelerator.h:41-45). The pointer `last_block_` is the key of its
target. -/
structure SpatialAccelerator (d : Nat) where
  lastBlockIndex : Index d
  lastBlock : Option (Index d)

namespace SpatialAccelerator
variable {d : Nat} {β : Type}

/-- A new accelerator, and the state after `reset` (query_accelerator_inl.h:8-13). -/
def fresh : SpatialAccelerator d := ⟨noBlockIndex, none⟩

/-- `getBlock` (query_accelerator_inl.h:15-23): the returned pointer and the accelerator. -/
def getBlock (m : SpatialHash d β) (a : SpatialAccelerator d) (b : Index d) : Option (Index d) × SpatialAccelerator d :=
  let a := if b ≠ a.lastBlockIndex then ⟨b, if m.hasBlock b then some b else none⟩ else a
  (a.lastBlock, a)

/-- `getOrAllocateBlock` (query_accelerator_inl.h:25-35): the hash, the returned reference and the accelerator. -/
def getOrAllocateBlock (m : SpatialHash d β) (a : SpatialAccelerator d) (b : Index d) (dflt : β) :
    SpatialHash d β × Option (Index d) × SpatialAccelerator d :=
  if b ≠ a.lastBlockIndex ∨ a.lastBlock = none then
    (m.getOrAllocateBlock b dflt, some b, ⟨b, some b⟩)
  else (m, a.lastBlock, a)

end SpatialAccelerator

/-! ## Octree block hash -/

/-- Member variables of `QueryAccelerator<NdtreeBlockHash>` (query_accelerator.h:98-107) for octrees. A node pointer is the
index of the block and the path from its root. `block_` is not null iff `hasBlock`. -/
structure NdtreeAccelerator where
  blockIndex : Index 3
  height : Nat
  mortonCode : Nat
  hasBlock : Bool
  nodeStack : Nat → Option (Index 3 × List (Fin (2 ^ 3)))

namespace NdtreeAccelerator
variable {α : Type}

/-- The node a pointer refers to. Auxiliary for query_accelerator_inl.h:107-188. -/
def deref (m : NdtreeBlockHash 3 α) (x : Index 3 × List (Fin (2 ^ 3))) : NTree (2 ^ 3) α :=
  match m.blocks.getBlock x.1 with
  | none => .nil
  | some b => b.root.descend x.2

/-- A new accelerator, and the state after `reset` (query_accelerator_inl.h:67-75). -/
def fresh (m : NdtreeBlockHash 3 α) : NdtreeAccelerator := ⟨noBlockIndex, m.maxHeight, 2 ^ 64 - 1, false, fun _ => none⟩

/-- `getBlock` (query_accelerator_inl.h:77-90). -/
def getBlock (m : NdtreeBlockHash 3 α) (a : NdtreeAccelerator) (b : Index 3) : Option NdtreeAccelerator :=
  if b ≠ a.blockIndex then
    if m.blocks.hasBlock b then
      (stackPut a.nodeStack m.maxHeight (some (b, []))).map fun s =>
        { a with blockIndex := b, height := m.maxHeight, hasBlock := true, nodeStack := s }
    else some { a with blockIndex := b, height := m.maxHeight, hasBlock := false }
  else some a

/-- `getOrAllocateBlock` without arguments (query_accelerator_inl.h:92-105). -/
def getOrAllocateBlock (m : NdtreeBlockHash 3 α) (a : NdtreeAccelerator) (b : Index 3) :
    Option (NdtreeBlockHash 3 α × NdtreeAccelerator) :=
  if b ≠ a.blockIndex ∨ a.hasBlock = false then
    (stackPut a.nodeStack m.maxHeight (some (b, []))).map fun s =>
      (m.getOrAllocateBlock b, { a with blockIndex := b, height := m.maxHeight, hasBlock := true, nodeStack := s })
  else some (m, a)

/-- The loop of `getNode` (query_accelerator_inl.h:135-145), from `height = h`. The early return for `height == index.height` before
the loop is the case in which the loop does not run. -/
def walk (m : NdtreeBlockHash 3 α) (target : Nat) : (h : Nat) → NdtreeAccelerator →
    Option ((Index 3 × List (Fin (2 ^ 3))) × NdtreeAccelerator)
  | h, a =>
    match stackAt a.nodeStack h with
    | some (some x) =>
      if target < h then
        match h with
        | 0 => none
        | h' + 1 =>
          let c := mortonChild a.mortonCode (h' + 1)
          if ((deref m x).child c).isNil then some (x, { a with height := h' + 1 })
          else
            match stackPut a.nodeStack h' (some (x.1, x.2 ++ [c])) with
            | none => none
            | some s => walk m target h' { a with nodeStack := s }
      else some (x, { a with height := h })
    | _ => none

/-- `getNode` (query_accelerator_inl.h:107-148): the returned pointer and the accelerator. -/
def getNode (m : NdtreeBlockHash 3 α) (a : NdtreeAccelerator) (n : NdtreeIndex 3) :
    Option (Option (Index 3 × List (Fin (2 ^ 3))) × NdtreeAccelerator) :=
  let morton := nodeIndexToMorton n
  match getBlock m { a with mortonCode := morton } (m.indexToBlockIndex n) with
  | none => none
  | some a' =>
    if a'.hasBlock then
      let h := if a'.height ≠ m.maxHeight then lastCommonAncestorHeight 3 morton n.height.toNat a.mortonCode a.height else a'.height
      (walk m n.height.toNat h a').map fun r => (some r.1, r.2)
    else some (none, a')

/-- `deref(x)->getOrAllocateChild(c, v)` (query_accelerator_inl.h:177-185). -/
def allocChild (m : NdtreeBlockHash 3 α) (x : Index 3 × List (Fin (2 ^ 3))) (c : Fin (2 ^ 3)) (v : α) : NdtreeBlockHash 3 α :=
  { m with blocks := m.blocks.modifyBlock x.1 fun b =>
      { b with root := b.root.modifyAt (fun t => t.setChild c (t.getOrAllocateChild c v)) x.2 } }

/-- The loop of `getOrAllocateNode` (query_accelerator_inl.h:177-185), with its early return as in `walk`; new nodes get the value `v` made from the arguments. -/
def walkAlloc (v : α) (target : Nat) : (h : Nat) → NdtreeBlockHash 3 α → NdtreeAccelerator →
    Option (NdtreeBlockHash 3 α × (Index 3 × List (Fin (2 ^ 3))) × NdtreeAccelerator)
  | h, m, a =>
    match stackAt a.nodeStack h with
    | some (some x) =>
      if target < h then
        match h with
        | 0 => none
        | h' + 1 =>
          let c := mortonChild a.mortonCode (h' + 1)
          match stackPut a.nodeStack h' (some (x.1, x.2 ++ [c])) with
          | none => none
          | some s => walkAlloc v target h' (allocChild m x c v) { a with nodeStack := s }
      else some (m, x, { a with height := h })
    | _ => none

/-- `getOrAllocateNode` (query_accelerator_inl.h:150-188): the data structure, the returned reference and the accelerator. `v` is
the value constructed from the arguments, `CellDataT{}` if there are none. -/
def getOrAllocateNode (m : NdtreeBlockHash 3 α) (a : NdtreeAccelerator) (n : NdtreeIndex 3) (v : α) :
    Option (NdtreeBlockHash 3 α × (Index 3 × List (Fin (2 ^ 3))) × NdtreeAccelerator) :=
  let morton := nodeIndexToMorton n
  match getOrAllocateBlock m { a with mortonCode := morton } (m.indexToBlockIndex n) with
  | none => none
  | some (m', a') =>
    let h := if a'.height ≠ m.maxHeight then lastCommonAncestorHeight 3 morton n.height.toNat a.mortonCode a.height else a'.height
    walkAlloc v n.height.toNat h m' a'

end NdtreeAccelerator
end Wavemap
