import Verif.Model.QueryAccelerator
import Verif.Model.Occupancy
/-!
# Classified maps

Models `library/cpp/include/wavemap/core/utils/query/{classified_map.h,impl/classified_map_inl.h}` and
`library/cpp/src/core/utils/query/classified_map.cc`.

The query cache keeps pointers into the block map. It is reset by every update, so a pointer is modelled by the node it points to,
null by `none`. (Changing the blocks through the non-const `getHashMap()` is not modelled.) The node stack is a `std::array` with
`morton::kMaxTreeHeight<3> = 20` elements; an access beyond its end is the outcome `none`.
-/
namespace Wavemap
open NdtreeIndex Haar

/-- `ChildBitset` (classified_map.h:16-22). -/
abbrev ChildBitset := BitVec 8

namespace ChildBitset

/-- `ChildBitset::set` (classified_map_inl.h:8-10), `bit_ops::set_bit` (bit_operations.h:118-126). -/
def set (b : ChildBitset) (i : Fin (2 ^ 3)) (v : Bool) : ChildBitset :=
  (b &&& ~~~(1#8 <<< i.val)) ||| ((if v then 1#8 else 0#8) <<< i.val)

/-- `ChildBitset::operator[]` (classified_map_inl.h:12-14), `bit_ops::is_bit_set` (bit_operations.h:108-111). -/
def get (b : ChildBitset) (i : Fin (2 ^ 3)) : Bool := decide ((b >>> i.val) &&& 1#8 ≠ 0#8)

/-- `ChildBitset::any` (classified_map_inl.h:16-18). -/
def any (b : ChildBitset) : Bool := decide (b ≠ 0#8)

end ChildBitset

/-- `ClassifiedMap::NodeData` (classified_map.h:26-34). -/
structure ClassData where
  hasFree : ChildBitset := 0
  hasOccupied : ChildBitset := 0
  hasUnobserved : ChildBitset := 0

namespace ClassData

/-- `occupancyMask` (classified_map_inl.h:67-70). -/
def occupancyMask (a : ClassData) : BitVec 8 := occMaskOfBools a.hasFree.any a.hasOccupied.any a.hasUnobserved.any

/-- `childOccupancyMask` (classified_map_inl.h:72-76). -/
def childOccupancyMask (a : ClassData) (c : Fin (2 ^ 3)) : BitVec 8 :=
  occMaskOfBools (a.hasFree.get c) (a.hasOccupied.get c) (a.hasUnobserved.get c)

end ClassData

/-- `ClassifiedMap::Node` (classified_map.h:38). -/
abbrev CTree := NTree (2 ^ 3) ClassData

namespace CTree

/-- `data()` of a node that is not null (classified_map.h:38, ndtree_node.h:30-31). -/
def classData (t : CTree) : ClassData :=
  match t with
  | .nil => {}
  | .leaf a => a
  | .node a _ => a

/-- The three calls `has_free.set(c, f)`, `has_occupied.set(c, o)`, `has_unobserved.set(c, u)` on a node's data
(classified_map.cc:354-357, 367-369). -/
def setBits (t : CTree) (c : Fin (2 ^ 3)) (f o u : Bool) : CTree :=
  let a := classData t
  NTree.setData t ⟨a.hasFree.set c f, a.hasOccupied.set c o, a.hasUnobserved.set c u⟩

/-- Classification of a leaf value into a node's bits for child `c` (classified_map.cc:361-370 and 411-418). -/
def setLeaf (cl : OccClassifier) (t : CTree) (c : Fin (2 ^ 3)) (v : ℚ) : CTree :=
  setBits t c (cl.is v OccId.free.toMask) (cl.is v OccId.occupied.toMask) (cl.is v OccId.unobserved.toMask)

/-- What happens with a classified child after the recursive call, given the child afterwards (classified_map.cc:349-360 and
427-444): store it, copy its summary and erase it if it has exactly one class. -/
def setInner (t : CTree) (c : Fin (2 ^ 3)) (k : CTree) : CTree :=
  let f := (classData k).hasFree.any
  let o := (classData k).hasOccupied.any
  let u := (classData k).hasUnobserved.any
  let t := setBits (NTree.setChild t c k) c f o u
  if f.toNat + o.toNat + u.toNat = 1 then (NTree.eraseChild t c).1 else t

/-- `recursiveClassifier(occupancy_node, average, classified_node)` (classified_map.cc:335-372): the classified node afterwards. -/
def classify (cl : OccClassifier) : WTree → ℚ → CTree → CTree
  | .nil, _, ct => ct -- not reached, the argument is a reference
  | .leaf a, avg, ct =>
    (List.finRange (2 ^ 3)).foldl (fun ct c => setLeaf cl ct c (backward 3 ⟨avg, a⟩ c)) ct
  | .node a ch, avg, ct =>
    (List.finRange (2 ^ 3)).foldl (fun ct c =>
      if (ch c).isNil then setLeaf cl ct c (backward 3 ⟨avg, a⟩ c)
      else setInner ct c (classify cl (ch c) (backward 3 ⟨avg, a⟩ c) (NTree.getOrAllocateChild ct c {}))) ct

/-- `child_occupancies[c]`, or the average where there is no node (classified_map.cc:381-394). -/
def childAverage (t : WTree) (avg : ℚ) (c : Fin (2 ^ 3)) : ℚ := if t.isNil then avg else backward 3 ⟨avg, t.details⟩ c

/-- `recursiveClassifier(node_index, occupancy_node, ...)` (classified_map.cc:374-447), for a node at height `h = node_index.height`.
`distance` is `esdf_map.getValue`, read through a `QueryAccelerator` in the code. A node at height 0 is never visited. -/
def classifyEsdf (cl : OccClassifier) (distance : Index 3 → Option ℚ) (radius : ℚ) : (h : Nat) → NdtreeIndex 3 → WTree → ℚ → CTree → CTree
  | 0, _, _, _, ct => ct
  | h + 1, n, t, avg, ct =>
    (List.finRange (2 ^ 3)).foldl (fun ct c =>
      let i := n.computeChildIndex c.val
      let v := childAverage t avg c
      if i.height = 0 ∨ (cl.is v OccId.free.toMask = false ∧ (t.child c).isNil = true) then
        if cl.is v OccId.free.toMask then
          match distance i.position with
          | some x => if x < radius then setBits ct c false true false else setLeaf cl ct c v
          | none => setLeaf cl ct c v
        else setLeaf cl ct c v
      else setInner ct c (classifyEsdf cl distance radius h i (t.child c) v (NTree.getOrAllocateChild ct c {}))) ct

/-- The loop of `forEachLeaf` (classified_map.cc:125-143) below a node. The explicit stack visits the same nodes in another order;
the order of the visitor calls is not modelled. -/
def leaves (term : Int) : CTree → NdtreeIndex 3 → List (NdtreeIndex 3 × BitVec 8)
  | .nil, _ => [] -- not reached, the stack holds references
  | .leaf a, n => (List.finRange (2 ^ 3)).map fun c => (n.computeChildIndex c.val, a.childOccupancyMask c)
  | .node a ch, n => (List.finRange (2 ^ 3)).flatMap fun c =>
    if (ch c).isNil = false ∧ term < (n.computeChildIndex c.val).height then leaves term (ch c) (n.computeChildIndex c.val)
    else [(n.computeChildIndex c.val, a.childOccupancyMask c)]

/-- The visitor calls for one child in `forEachLeafMatching` (classified_map.cc:162-179), given those below it. -/
def matchingChild (mask : BitVec 8) (term : Int) (a : ClassData) (n : NdtreeIndex 3) (c : Fin (2 ^ 3))
    (below : List (NdtreeIndex 3 × BitVec 8)) : List (NdtreeIndex 3 × BitVec 8) :=
  if !OccClassifier.has (a.childOccupancyMask c) mask then []
  else if OccClassifier.isFully (a.childOccupancyMask c) mask ∨ (n.computeChildIndex c.val).height ≤ term then
    [(n.computeChildIndex c.val, a.childOccupancyMask c)]
  else below

/-- The loop of `forEachLeafMatching` (classified_map.cc:150-181) below a node, in the same way. -/
def leavesMatching (mask : BitVec 8) (term : Int) : CTree → NdtreeIndex 3 → List (NdtreeIndex 3 × BitVec 8)
  | .nil, _ => [] -- not reached if the node is a reference, and no visits for a missing child
  | .leaf a, n => (List.finRange (2 ^ 3)).flatMap fun c => matchingChild mask term a n c []
  | .node a ch, n => (List.finRange (2 ^ 3)).flatMap fun c =>
    matchingChild mask term a n c (leavesMatching mask term (ch c) (n.computeChildIndex c.val))

end CTree

/-- `ClassifiedMap::QueryCache` (classified_map.h:122-147). `block` says whether the pointer is not null. -/
structure QueryCache where
  blockIndex : Index 3
  height : Nat
  mortonCode : Nat
  block : Bool
  nodeStack : Nat → Option CTree

/-- `ClassifiedMap::BlockHashMap` (classified_map.h:36). -/
abbrev ClassBlocks := NdtreeBlockHash 3 ClassData

namespace QueryCache

/-- A new cache, and the state after `reset` (classified_map.cc:326-333). -/
def fresh (H : Nat) : QueryCache := ⟨noBlockIndex, H, 2 ^ 64 - 1, false, fun _ => none⟩

/-- `getBlock` (classified_map_inl.h:111-123). -/
def getBlock (m : ClassBlocks) (q : QueryCache) (b : Index 3) : Option QueryCache :=
  if b ≠ q.blockIndex then
    match m.blocks.getBlock b with
    | some x => (stackPut q.nodeStack m.maxHeight (some x.root)).map fun s =>
        { q with blockIndex := b, height := m.maxHeight, block := true, nodeStack := s }
    | none => some { q with blockIndex := b, height := m.maxHeight, block := false }
  else some q

/-- The common beginning of the three queries (classified_map.cc:187-203, 229-245, 279-295): the cache with `height` set to the
last common ancestor of this query and the previous one. `block = false` means that the query returns at once. -/
def start (m : ClassBlocks) (q : QueryCache) (n : NdtreeIndex 3) : Option QueryCache :=
  let morton := nodeIndexToMorton n
  match getBlock m { q with mortonCode := morton } (m.indexToBlockIndex n) with
  | none => none
  | some q' =>
    if q'.block ∧ q'.height ≠ m.maxHeight then
      some { q' with height := lastCommonAncestorHeight 3 morton n.height.toNat q.mortonCode q.height }
    else some q'

/-- The loop of `getNodeOrAncestor` (classified_map.cc:205-223), from `height = h`, with the early return for `height == index.height`
as the case in which it does not run: the node, its height and the cache. -/
def walk (target : Nat) : (h : Nat) → QueryCache → Option (CTree × Nat × QueryCache)
  | h, q =>
    match stackAt q.nodeStack h with
    | some (some x) =>
      if target < h then
        match h with
        | 0 => none
        | h' + 1 =>
          let c := mortonChild q.mortonCode (h' + 1)
          if (NTree.child x c).isNil then some (x, h' + 1, { q with height := h' + 1 })
          else
            match stackPut q.nodeStack h' (some (NTree.child x c)) with
            | none => none
            | some s => walk target h' { q with nodeStack := s }
      else some (x, h, { q with height := h })
    | _ => none

/-- `getNodeOrAncestor` (classified_map.cc:184-224); a null node is `nil`. -/
def getNodeOrAncestor (m : ClassBlocks) (q : QueryCache) (n : NdtreeIndex 3) : Option ((CTree × Nat) × QueryCache) :=
  match start m q n with
  | none => none
  | some q => if q.block then (walk n.height.toNat q.height q).map fun r => ((r.1, r.2.1), r.2.2) else some ((.nil, m.maxHeight), q)

/-- The loop of `has` and `isFully` (classified_map.cc:254-273, 304-323), from `height = h`. The two are the same text except for the
last return value, here `final`. -/
def regionWalk (mask : BitVec 8) (final : Bool) (target : Nat) : (h : Nat) → QueryCache → Option (Bool × QueryCache)
  | h, q =>
    match stackAt q.nodeStack h with
    | some (some x) =>
      match h with
      | 0 => none
      | h' + 1 =>
        let c := mortonChild q.mortonCode (h' + 1)
        let region := (CTree.classData x).childOccupancyMask c
        if OccClassifier.isFully region mask then some (true, { q with height := h' + 1 })
        else if !OccClassifier.has region mask then some (false, { q with height := h' + 1 })
        else if h' = target ∨ (NTree.child x c).isNil = true then some (final, { q with height := h' + 1 })
        else
          match stackPut q.nodeStack h' (some (NTree.child x c)) with
          | none => none
          | some s => regionWalk mask final target h' { q with nodeStack := s }
    | _ => none

/-- `has` and `isFully` (classified_map.cc:226-274, 276-324). They differ in the test applied when the node itself is cached
(`atNode`) and in the last return value (`final`). -/
def region (atNode : BitVec 8 → BitVec 8 → Bool) (final : Bool) (m : ClassBlocks) (q : QueryCache) (n : NdtreeIndex 3) (mask : BitVec 8) :
    Option (Bool × QueryCache) :=
  match start m q n with
  | none => none
  | some q =>
    if q.block then
      if q.height = n.height.toNat then
        match stackAt q.nodeStack q.height with
        | some (some x) => some (atNode (CTree.classData x).occupancyMask mask, q)
        | _ => none
      else regionWalk mask final n.height.toNat q.height q
    else some (false, q)

/-- `has` (classified_map.cc:226-274). -/
def has : ClassBlocks → QueryCache → NdtreeIndex 3 → BitVec 8 → Option (Bool × QueryCache) := region OccClassifier.has true

/-- `isFully` (classified_map.cc:276-324). -/
def isFully : ClassBlocks → QueryCache → NdtreeIndex 3 → BitVec 8 → Option (Bool × QueryCache) := region OccClassifier.isFully false

end QueryCache

/-- `ClassifiedMap` (classified_map.h:24-160). The tree height is that of the block map. -/
structure ClassifiedMap where
  minCellWidth : ℚ
  classifier : OccClassifier
  blocks : ClassBlocks
  cache : QueryCache

namespace ClassifiedMap

/-- Constructor (classified_map.cc:11-16, classified_map.h:113-117). -/
def create (minCellWidth : ℚ) (H : Nat) (cl : OccClassifier) : ClassifiedMap := ⟨minCellWidth, cl, .create H {}, .fresh H⟩

/-- Erase the blocks that are not in the occupancy map (classified_map.cc:51-54, 80-83). -/
def eraseMissing (c : ClassBlocks) (m : HashedWaveletOctree) : ClassBlocks :=
  { c with blocks := c.blocks.eraseBlockIf fun k x => (x, !m.blocks.hasBlock k) }

/-- The visit of one block: allocate it and classify its root node with `f` (classified_map.cc:57-63, 91-95). -/
def updateBlock (c : ClassBlocks) (k : Index 3) (f : CTree → CTree) : ClassBlocks :=
  let c' := c.getOrAllocateBlock k
  { c' with blocks := c'.blocks.modifyBlock k fun x => { x with root := f x.root } }

/-- `update(occupancy_map)` (classified_map.cc:45-64). -/
def update (c : ClassifiedMap) (m : HashedWaveletOctree) : ClassifiedMap :=
  { c with
    cache := .fresh c.blocks.maxHeight
    blocks := m.blocks.foldl (fun bs e => updateBlock bs e.1 (CTree.classify c.classifier e.2.root e.2.rootScale)) (eraseMissing c.blocks m) }

/-- `kEpsilon` (constants.h:15). -/
def epsilon : ℚ := 1 / 1000000

/-- `update(occupancy_map, esdf_map, robot_radius)` (classified_map.cc:66-97); `none` if a `CHECK` fails. -/
def updateEsdf (c : ClassifiedMap) (m : HashedWaveletOctree) (esdf : HashedBlocks) (radius : ℚ) : Option ClassifiedMap :=
  if radius ≤ esdf.hash.defaultValue ∧ radius ≤ esdf.config.maxLogOdds ∧ |esdf.config.minCellWidth - m.config.minCellWidth| ≤ epsilon then
    some { c with
      cache := .fresh c.blocks.maxHeight
      blocks := m.blocks.foldl (fun bs e => updateBlock bs e.1 (CTree.classifyEsdf c.classifier esdf.hash.getValue radius m.config.treeHeight
        ⟨m.config.treeHeight, e.1⟩ e.2.root e.2.rootScale)) (eraseMissing c.blocks m) }
  else none

/-- `ClassifiedMap(occupancy_map, classifier)` (classified_map.cc:18-23). -/
def ofMap (m : HashedWaveletOctree) (cl : OccClassifier) : ClassifiedMap := (create m.config.minCellWidth m.config.treeHeight cl).update m

/-- `ClassifiedMap(occupancy_map, classifier, esdf_map, robot_radius)` (classified_map.cc:25-32). -/
def ofMapEsdf (m : HashedWaveletOctree) (cl : OccClassifier) (esdf : HashedBlocks) (radius : ℚ) : Option ClassifiedMap :=
  (create m.config.minCellWidth m.config.treeHeight cl).updateEsdf m esdf radius

/-- `has(index, mask)` (classified_map_inl.h:35-38): the answer and the map with its cache. -/
def has (c : ClassifiedMap) (n : NdtreeIndex 3) (mask : BitVec 8) : Option (Bool × ClassifiedMap) :=
  (c.cache.has c.blocks n mask).map fun r => (r.1, { c with cache := r.2 })

/-- `isFully(index, mask)` (classified_map_inl.h:55-58). -/
def isFully (c : ClassifiedMap) (n : NdtreeIndex 3) (mask : BitVec 8) : Option (Bool × ClassifiedMap) :=
  (c.cache.isFully c.blocks n mask).map fun r => (r.1, { c with cache := r.2 })

/-- `hasBlock` (classified_map_inl.h:78-85); it goes through the cache. -/
def hasBlock (c : ClassifiedMap) (b : Index 3) : Option (Bool × ClassifiedMap) :=
  (c.cache.getBlock c.blocks b).map fun q => (q.block, { c with cache := q })

/-- `getNodeOrAncestor` (classified_map_inl.h:87-90). -/
def getNodeOrAncestor (c : ClassifiedMap) (n : NdtreeIndex 3) : Option ((CTree × Nat) × ClassifiedMap) :=
  (c.cache.getNodeOrAncestor c.blocks n).map fun r => (r.1, { c with cache := r.2 })

/-- `hasNode` and `getNode` (classified_map.h:83, classified_map_inl.h:92-95): whether the returned pointer is not null. -/
def hasNode (c : ClassifiedMap) (n : NdtreeIndex 3) : Option (Bool × ClassifiedMap) :=
  (c.getNodeOrAncestor n).map fun r => (!r.1.1.isNil, r.2)

/-- `getValueOrAncestor` (classified_map.cc:99-112): the mask (if any), the height and the map. -/
def getValueOrAncestor (c : ClassifiedMap) (n : NdtreeIndex 3) : Option ((Option (BitVec 8) × Int) × ClassifiedMap) :=
  (c.getNodeOrAncestor n.computeParentIndex).map fun r =>
    (if r.1.1.isNil then (none, (c.blocks.maxHeight : Int))
      else (some ((CTree.classData r.1.1).childOccupancyMask (mortonChild (nodeIndexToMorton n) r.1.2)), (r.1.2 : Int) - 1), r.2)

/-- `getValue` (classified_map_inl.h:101-104). -/
def getValue (c : ClassifiedMap) (n : NdtreeIndex 3) : Option (Option (BitVec 8) × ClassifiedMap) :=
  (c.getValueOrAncestor n).map fun r => (r.1.1, r.2)

/-- `forEachLeaf` (classified_map.cc:114-145): the arguments of the visitor calls. -/
def forEachLeaf (c : ClassifiedMap) (term : Int) : List (NdtreeIndex 3 × BitVec 8) :=
  c.blocks.blocks.flatMap fun e => CTree.leaves term e.2.root ⟨e.2.maxHeight, e.1⟩

/-- `forEachLeafMatching` (classified_map.cc:147-182). -/
def forEachLeafMatching (c : ClassifiedMap) (mask : BitVec 8) (term : Int) : List (NdtreeIndex 3 × BitVec 8) :=
  c.blocks.blocks.flatMap fun e => CTree.leavesMatching mask term e.2.root ⟨e.2.maxHeight, e.1⟩

end ClassifiedMap
end Wavemap
