import Verif.Model.Io
import Verif.Model.Undistortion
/-!
# Map messages

Models `interfaces/ros1/wavemap_ros_conversions/src/map_msg_conversions.cc`, the message definitions in
`interfaces/ros1/wavemap_msgs/msg` and the publishing operation
`interfaces/ros1/wavemap_ros/{src/map_operations/publish_map_operation.cc,include/wavemap_ros/map_operations/impl/publish_map_operation_inl.h}`.

Message fields of type `float32` and `int32` hold the map's numbers without a change (the map's own numbers are floats and
ints), so they are plain numbers here. Message headers (frame and stamp) are left out. Serialising with a thread pool gives
each task its own element of the message, so the result is the one of the sequential loop. `Time::now()` is an argument, the
same for all calls made while one message is read.
-/
namespace Wavemap
open Haar

/-! ## Messages -/

/-- `WaveletOctreeNode.msg`. There are 8 coefficients although a node has 7; the constructor of the message sets them to 0. -/
structure NodeMsg where
  details : Fin 8 → ℚ
  bitset : Nat

/-- `HashedWaveletOctreeBlock.msg`. -/
structure BlockMsg where
  offset : Index 3
  rootScale : ℚ
  nodes : List NodeMsg

/-- `HashedWaveletOctree.msg`. -/
structure HashedWaveletMsg where
  minCellWidth : ℚ
  minLogOdds : ℚ
  maxLogOdds : ℚ
  treeHeight : Int
  allocated : List (Index 3)
  blocks : List BlockMsg

/-- `WaveletOctree.msg`. -/
structure WaveletMsg where
  minCellWidth : ℚ
  minLogOdds : ℚ
  maxLogOdds : ℚ
  treeHeight : Int
  rootScale : ℚ
  nodes : List NodeMsg

/-- `HashedBlocks.msg` with its `HashedBlock.msg`s. -/
structure HashedBlocksMsg where
  minCellWidth : ℚ
  minLogOdds : ℚ
  maxLogOdds : ℚ
  allocated : List (Index 3)
  blocks : List (Index 3 × List ℚ)

/-- `Map.msg`. -/
structure MapMsg where
  hashedBlocks : List HashedBlocksMsg
  waveletOctree : List WaveletMsg
  hashedWavelet : List HashedWaveletMsg

/-! ## Octree nodes -/

/-- `std::copy(node.data().cbegin(), node.data().cend(), node_msg.detail_coefficients.begin())`
(map_msg_conversions.cc:199-200, 357-358): the eighth coefficient keeps its 0. -/
def NodeMsg.make (a : Details 3) (bitset : Nat) : NodeMsg :=
  ⟨fun i => if h : i.val < 2 ^ 3 - 1 then a ⟨i.val, h⟩ else 0, bitset⟩

/-- `std::copy(node_msg.detail_coefficients.cbegin(), .cend(), node->data().begin())` (map_msg_conversions.cc:240-241,
437-438): the coefficients that land in the node and the number of elements written past the end of its array. By the C++
standard the latter is undefined behaviour; with the usual layout the eighth float goes into the padding in front of the node's
child pointer (ndtree_node.h:54-55), and the model goes on as if it had no effect. -/
def NodeMsg.copyTo (n : NodeMsg) : Details 3 × Nat := (fun i => n.details ⟨i.val, by omega⟩, 8 - (2 ^ 3 - 1))

/-- The loop that reads the nodes of an octree (map_msg_conversions.cc:230-255, 431-451). A node pointer is its path from the
root. `none` is taking an element from an empty stack: undefined behaviour, as the check is a `DCHECK`. -/
def readNodeMsgs : List NodeMsg → List (List (Fin (2 ^ 3))) → WTree → Option WTree
  | [], _, t => some t
  | _ :: _, [], _ => none
  | n :: ns, p :: stack, t =>
    readNodeMsgs ns ((announced n.bitset).map (fun c => p ++ [c]) ++ stack)
      (NTree.modifyAt (fun u => allocChildren (announced n.bitset) (u.setData n.copyTo.1)) t p)

/-- The loop that writes the octree of a hashed block (map_msg_conversions.cc:346-382), for a stack of (scale, node). -/
def writeNodeMsgs (lo hi : ℚ) : Nat → List (ℚ × WTree) → Option (List NodeMsg)
  | _, [] => some []
  | 0, _ :: _ => none
  | fuel + 1, (scale, t) :: stack =>
    let vals := backward 3 ⟨scale, t.details⟩
    let kept := keptChildren lo hi vals t.hasChild
    match writeNodeMsgs lo hi fuel (kept.map (fun c => (vals c, t.child c)) ++ stack) with
    | none => none
    | some rest => some (.make t.details (childBitset kept) :: rest)

/-- The same loop for the octree of a chunked block (map_msg_conversions.cc:550-580). -/
def writeChunkNodeMsgs (lo hi : ℚ) (s : WChunks) : Nat → List (ℚ × ChunkNode) → Option (List NodeMsg)
  | _, [] => some []
  | 0, _ :: _ => none
  | fuel + 1, (scale, r) :: stack =>
    let vals := backward 3 ⟨scale, WChunks.details s r⟩
    let kept := keptChildren lo hi vals fun c => (s.getChild 3 chunkHeight r c).isSome
    match writeChunkNodeMsgs lo hi s fuel
        (kept.filterMap (fun c => (s.getChild 3 chunkHeight r c).map fun r' => (vals c, r')) ++ stack) with
    | none => none
    | some rest => some (.make (WChunks.details s r) (childBitset kept) :: rest)

/-! ## HashedBlocks -/

namespace HashedBlocks

/-- `mapToRosMsg(HashedBlocks)` (map_msg_conversions.cc:109-140). -/
def toMsg (m : HashedBlocks) : HashedBlocksMsg :=
  ⟨m.config.minCellWidth, m.config.minLogOdds, m.config.maxLogOdds, m.hash.blockMap.map Prod.fst,
    m.hash.blockMap.map fun e => (e.1, (List.range (DenseGrid.cellsPerBlock 3 4)).map e.2)⟩

/-- The loop over the values of a block (map_msg_conversions.cc:177-180). A value past the last cell of the block would be
written out of bounds: `none`. -/
def writeCells (g : DenseGrid ℚ) (values : List ℚ) : Option (DenseGrid ℚ) :=
  if values.length ≤ DenseGrid.cellsPerBlock 3 4 then some fun l => (values[l]?).getD (g l) else none

/-- The loop over the blocks (map_msg_conversions.cc:168-181). -/
def applyBlocks : List (Index 3 × List ℚ) → HashedBlocks → Option HashedBlocks
  | [], m => some m
  | e :: es, m =>
    let hash := m.hash.getOrAllocateBlock e.1
    match hash.blockMap.getBlock e.1 with
    | none => none -- not possible: the block was just allocated
    | some g =>
      match writeCells g e.2 with
      | none => none
      | some g' => applyBlocks es { m with hash := { hash with blockMap := hash.blockMap.modifyBlock e.1 fun _ => g' } }

/-- `rosMsgToMap(HashedBlocks)` (map_msg_conversions.cc:142-182). `old` is the receiver's map, if it is of this type. -/
def applyMsg (msg : HashedBlocksMsg) (old : Option HashedBlocks) : Outcome HashedBlocks :=
  let config : MapBaseConfig := ⟨msg.minCellWidth, msg.minLogOdds, msg.maxLogOdds⟩
  let new : Outcome HashedBlocks := if config.isValid then .done (create config 0) else .abort
  let start := match old with
    | none => new
    | some m =>
      if m.config.minCellWidth = config.minCellWidth ∧ m.config.minLogOdds = config.minLogOdds ∧
          m.config.maxLogOdds = config.maxLogOdds then
        .done { m with hash := { m.hash with blockMap := m.hash.blockMap.eraseBlockIf fun k g => (g, !decide (k ∈ msg.allocated)) } }
      else new
  start.bind fun m =>
    match applyBlocks msg.blocks m with
    | none => .undefined
    | some m => .done m

end HashedBlocks

/-! ## WaveletOctree -/

namespace WaveletOctree

/-- `mapToRosMsg(WaveletOctree)` (map_msg_conversions.cc:184-209). -/
def toMsg (m : WaveletOctree) : Option WaveletMsg :=
  (iterLoop (preNext m.root) m.root.numNodes (iterStart m.root)).map fun ps =>
    ⟨m.config.minCellWidth, m.config.minLogOdds, m.config.maxLogOdds, m.config.treeHeight, m.rootScale,
      ps.map fun p => .make (WTree.details (m.root.descend p))
        (childBitset ((List.finRange (2 ^ 3)).filter fun c => (m.root.descend p).hasChild c))⟩

/-- `rosMsgToMap(WaveletOctree)` (map_msg_conversions.cc:211-256). A map with the same settings is not cleared first. -/
def applyMsg (msg : WaveletMsg) (old : Option WaveletOctree) : Outcome WaveletOctree :=
  let config : WaveletOctreeConfig := ⟨msg.minCellWidth, msg.minLogOdds, msg.maxLogOdds, msg.treeHeight.toNat⟩
  let new : Outcome WaveletOctree :=
    if config.isValid && decide (config.treeHeight ≤ maxWaveletTreeHeight) then .done (create config) else .abort
  let start := match old with
    | none => new
    | some m =>
      if m.config.minCellWidth = config.minCellWidth ∧ m.config.minLogOdds = config.minLogOdds ∧
          m.config.maxLogOdds = config.maxLogOdds ∧ (m.config.treeHeight : Int) = msg.treeHeight then .done m
      else new
  start.bind fun m =>
    match readNodeMsgs msg.nodes [[]] m.root with
    | none => .undefined
    | some t => .done { m with rootScale := msg.rootScale, root := t }

end WaveletOctree

/-! ## HashedWaveletOctree -/

namespace HashedWaveletOctree

/-- `blockToRosMsg` (map_msg_conversions.cc:330-383). -/
def blockMsg (config : HashedWaveletOctreeConfig) (k : Index 3) (b : WaveletBlock) : Option BlockMsg :=
  (writeNodeMsgs config.minLogOdds config.maxLogOdds b.root.numNodes [(b.rootScale, b.root)]).map fun l => ⟨k, b.rootScale, l⟩

/-- `mapToRosMsg(HashedWaveletOctree)` (map_msg_conversions.cc:258-328). `blocks` lists the elements of the set
`include_blocks` in the order of its iteration (for no such set, all blocks of the map). -/
def toMsg (m : HashedWaveletOctree) (blocks : List (Index 3)) : Option HashedWaveletMsg :=
  (blocks.filterMap (fun k => (m.blocks.getBlock k).map fun b => (k, b))).mapM (fun e => blockMsg m.config e.1 e.2) |>.map fun l =>
    ⟨m.config.minCellWidth, m.config.minLogOdds, m.config.maxLogOdds, m.config.treeHeight, m.blocks.map Prod.fst, l⟩

/-- The loop over the blocks of a message (map_msg_conversions.cc:413-452). The constructor of a block checks the tree
height. -/
def applyBlocks (now : ℚ) : List BlockMsg → HashedWaveletOctree → Outcome HashedWaveletOctree
  | [], m => .done m
  | e :: es, m =>
    if m.config.treeHeight ≤ maxWaveletTreeHeight then
      let existed := m.blocks.hasBlock e.offset
      let m := m.getOrAllocateBlock e.offset now
      match m.blocks.getBlock e.offset with
      | none => .undefined -- not possible: the block was just allocated
      | some b =>
        let b := if existed then b.clear now else b
        match readNodeMsgs e.nodes [[]] b.root with
        | none => .undefined
        | some t =>
          applyBlocks now es { m with blocks := m.blocks.modifyBlock e.offset fun _ => { b with rootScale := e.rootScale, root := t } }
    else .abort

/-- The settings of the receiver's map (map_msg_conversions.cc:388-393). -/
def msgConfig (msg : HashedWaveletMsg) : HashedWaveletOctreeConfig :=
  ⟨msg.minCellWidth, msg.minLogOdds, msg.maxLogOdds, msg.treeHeight.toNat, defaultOnlyPruneBlocksIfUnusedFor⟩

/-- `map->getConfig() == config` (map_msg_conversions.cc:396; hashed_wavelet_octree.cc:8-13 lists the compared members). -/
def sameConfig (a b : HashedWaveletOctreeConfig) : Bool :=
  decide (a.minCellWidth = b.minCellWidth) && decide (a.minLogOdds = b.minLogOdds) && decide (a.maxLogOdds = b.maxLogOdds) &&
    decide (a.treeHeight = b.treeHeight) && decide (a.onlyPruneBlocksIfUnusedFor = b.onlyPruneBlocksIfUnusedFor)

/-- `rosMsgToMap(HashedWaveletOctree)` (map_msg_conversions.cc:385-453). `old` is the receiver's map, if it is of this type. -/
def applyMsg (now : ℚ) (msg : HashedWaveletMsg) (old : Option HashedWaveletOctree) : Outcome HashedWaveletOctree :=
  let new : Outcome HashedWaveletOctree := if (msgConfig msg).isValid then .done (create (msgConfig msg)) else .abort
  let start := match old with
    | none => new
    | some m => if sameConfig m.config (msgConfig msg) then .done (m.eraseBlockIf fun k => !decide (k ∈ msg.allocated)) else new
  start.bind (applyBlocks now msg.blocks)

end HashedWaveletOctree

namespace HashedChunkedWaveletOctree

/-- `blockToRosMsg` (map_msg_conversions.cc:529-581). -/
def blockMsg (config : HashedWaveletOctreeConfig) (k : Index 3) (b : ChunkedWaveletBlock) : Option BlockMsg :=
  (writeChunkNodeMsgs config.minLogOdds config.maxLogOdds b.chunks (maxNumNodes b) [(b.rootScale, ChunkNode.root)]).map
    fun l => ⟨k, b.rootScale, l⟩

/-- `mapToRosMsg(HashedChunkedWaveletOctree)` (map_msg_conversions.cc:455-527). -/
def toMsg (m : HashedChunkedWaveletOctree) (blocks : List (Index 3)) : Option HashedWaveletMsg :=
  (blocks.filterMap (fun k => (m.blocks.getBlock k).map fun b => (k, b))).mapM (fun e => blockMsg m.config e.1 e.2) |>.map fun l =>
    ⟨m.config.minCellWidth, m.config.minLogOdds, m.config.maxLogOdds, m.config.treeHeight, m.blocks.map Prod.fst, l⟩

end HashedChunkedWaveletOctree

/-! ## Any map -/

/-- `mapToRosMsg(MapBase)` (map_msg_conversions.cc:13-49): `some none` for a map type that is not supported, `none` if a loop
runs out of fuel. -/
def AnyMap.toMsg : AnyMap → Option (Option MapMsg)
  | .hashedBlocks m => some (some ⟨[m.toMsg], [], []⟩)
  | .waveletOctree m => m.toMsg.map fun x => some ⟨[], [x], []⟩
  | .hashedWavelet m => (m.toMsg (m.blocks.map Prod.fst)).map fun x => some ⟨[], [], [x]⟩
  | .hashedChunked m => (m.toMsg (m.blocks.map Prod.fst)).map fun x => some ⟨[], [], [x]⟩
  | .volumetricOctree _ => some none

/-- `dynamic_pointer_cast` of the receiver's map to each map type (map_msg_conversions.cc:83, 89, 96). -/
def AnyMap.asHashedBlocks : Option AnyMap → Option HashedBlocks
  | some (.hashedBlocks m) => some m
  | _ => none

/-- The same for `WaveletOctree` (map_msg_conversions.cc:89). -/
def AnyMap.asWaveletOctree : Option AnyMap → Option WaveletOctree
  | some (.waveletOctree m) => some m
  | _ => none

/-- The same for `HashedWaveletOctree` (map_msg_conversions.cc:96). -/
def AnyMap.asHashedWavelet : Option AnyMap → Option HashedWaveletOctree
  | some (.hashedWavelet m) => some m
  | _ => none

/-- `rosMsgToMap(MapBase::Ptr)` (map_msg_conversions.cc:51-107): the returned flag and the new value of the map pointer. -/
def rosMsgToMap (now : ℚ) (msg : MapMsg) (map : Option AnyMap) : Outcome (Bool × Option AnyMap) :=
  if 1 < msg.hashedBlocks.length ∨ 1 < msg.waveletOctree.length ∨ 1 < msg.hashedWavelet.length ∨
      (msg.hashedBlocks = [] ∧ msg.waveletOctree = [] ∧ msg.hashedWavelet = []) then .done (false, none)
  else
    match msg.hashedBlocks, msg.waveletOctree, msg.hashedWavelet with
    | x :: _, _, _ =>
      (HashedBlocks.applyMsg x (AnyMap.asHashedBlocks map)).bind
        fun m => .done (true, some (.hashedBlocks m))
    | [], x :: _, _ =>
      (WaveletOctree.applyMsg x (AnyMap.asWaveletOctree map)).bind
        fun m => .done (true, some (.waveletOctree m))
    | [], [], x :: _ =>
      (HashedWaveletOctree.applyMsg now x (AnyMap.asHashedWavelet map)).bind
        fun m => .done (true, some (.hashedWavelet m))
    | [], [], [] => .done (false, none)

/-! ## Publishing -/

namespace HashedWaveletOctree

/-- The blocks selected for one message (publish_map_operation_inl.h:33-41): walk over the changed blocks, threshold each one
that exists and stop after `max`. Returns the selected blocks and the map. -/
def selectBlocks (max : Nat) : Nat → List (Index 3) → HashedWaveletOctree → List (Index 3) × HashedWaveletOctree
  | _, [], m => ([], m)
  | count, k :: ks, m =>
    if m.blocks.hasBlock k then
      let m := { m with blocks := m.blocks.modifyBlock k fun b => b.threshold }
      if max ≤ count + 1 then ([k], m)
      else
        let r := selectBlocks max (count + 1) ks m
        (k :: r.1, r.2)
    else selectBlocks max count ks m

/-- The loop that publishes the changed blocks (publish_map_operation_inl.h:29-59). `changed` lists the set in the order of its
iteration, `shuffle` is the order in which the set of selected blocks is iterated. -/
def publishLoop (shuffle : List (Index 3) → List (Index 3)) (max : Nat) :
    Nat → List (Index 3) → HashedWaveletOctree → Option (HashedWaveletOctree × List HashedWaveletMsg)
  | _, [], m => some (m, [])
  | 0, _ :: _, _ => none
  | fuel + 1, k :: ks, m =>
    let r := selectBlocks max 0 (k :: ks) m
    match r.2.toMsg (shuffle r.1) with
    | none => none
    | some msg => (publishLoop shuffle max fuel ((k :: ks).drop r.1.length) r.2).map fun s => (s.1, msg :: s.2)

end HashedWaveletOctree

/-- `PublishMapOperation::publishMap` for a hashed wavelet octree (publish_map_operation.cc:59-85;
publish_map_operation_inl.h:12-60): the map, the new `last_run_timestamp_internal_` and the messages. An empty map returns
before anything happens. -/
def publishMap (shuffle : List (Index 3) → List (Index 3)) (max : Nat) (lastRun now : ℚ) (republish : Bool)
    (m : HashedWaveletOctree) : Option (HashedWaveletOctree × ℚ × List HashedWaveletMsg) :=
  if m.blocks.isEmpty then some (m, lastRun, [])
  else
    let changed := shuffle ((m.blocks.filter fun e => republish || decide (lastRun < e.2.lastUpdated)).map Prod.fst)
    (m.publishLoop shuffle max changed.length changed).map fun r => (r.1, now, r.2)

end Wavemap
