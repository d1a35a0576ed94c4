import Verif.Model.Stream
import Verif.Model.Wavelet
import Verif.Model.ChunkedWavelet
import Verif.Model.VolumetricOctree
import Verif.Model.SubtreeIterator
/-!
# Writing maps to streams and files, and reading them back

Models `library/cpp/src/io/{stream_conversions.cc,file_conversions.cc}`.

A failed `CHECK` ends the process: outcome `abort`. Loops are bounded by a fuel argument and running out of fuel is the
distinct outcome `none`; that this never happens is part of the theorems. `Time::now()` is an argument (the same for all
blocks of one call).
-/
namespace Wavemap
open Haar Streamable

/-- What a reader does: end the process, return `false`, or return `true` with a map and the stream afterwards
(stream_conversions.cc:96-119, 171-211, 269-354, 426-510). -/
inductive LoadResult (α : Type) where
  | abort : LoadResult α
  | failed : LoadResult α
  | ok (map : α) (rest : IStream) : LoadResult α

/-! ## Octree nodes -/

/-- `allocated_children_bitset` after `+= (1 << c)` for every given child (stream_conversions.cc:199-205, 332-347); a
`UInt8`. -/
def childBitset (cs : List (Fin (2 ^ 3))) : Nat := (cs.map fun c => 2 ^ c.val).sum % 256

/-- The record of one node of a `WaveletOctree` (stream_conversions.cc:195-206). -/
def nodeRecord (t : WTree) : List Byte :=
  Node.bytes ⟨t.details, childBitset ((List.finRange (2 ^ 3)).filter fun c => t.hasChild c)⟩

/-- `bit_ops::is_bit_set` (bit_operations.h). -/
def isBitSet (v : Nat) (i : Nat) : Bool := v / 2 ^ i % 2 == 1

/-- The children announced by a record, in the order in which they end up on the stack, top first. The loop goes from child
7 down to 0 (stream_conversions.cc:255-262, 411-418). -/
def announced (bitset : Nat) : List (Fin (2 ^ 3)) := (List.finRange (2 ^ 3)).filter fun c => isBitSet bitset c.val

/-- `node->getOrAllocateChild(c)` for all announced children (stream_conversions.cc:255-262): the node afterwards. Child 7 is
allocated first. -/
def allocChildren (cs : List (Fin (2 ^ 3))) (t : WTree) : WTree :=
  cs.reverse.foldl (fun t c => t.setChild c (t.getOrAllocateChild c zeroDetails)) t

/-- The loop that reads an octree (stream_conversions.cc:243-263, 399-419). A node pointer is its path from the root. -/
def readNodes : Nat → List (List (Fin (2 ^ 3))) → WTree → IStream → Option (WTree × IStream)
  | _, [], t, s => some (t, s)
  | 0, _ :: _, _, _ => none
  | fuel + 1, p :: stack, t, s =>
    let r := Node.read s
    let t' := NTree.modifyAt (fun n => allocChildren (announced r.1.bitset) (n.setData r.1.details)) t p
    readNodes fuel ((announced r.1.bitset).map (fun c => p ++ [c]) ++ stack) t' r.2

/-- Fuel for `readNodes` (each iteration takes one pointer from the stack and, if it pushes any, also 29 bytes from the
stream). Auxiliary for the loops at stream_conversions.cc:195-206, 332-347. -/
def readFuel (s : IStream) : Nat := 1 + 8 * s.bytes.length

/-- `kNumericalNoise` (stream_conversions.cc:280, 437): `1e-3f`, as an exact rational. -/
def ioNoise : ℚ := 1 / 1000

/-- The children of a node that are written: not saturated (stream_conversions.cc:332-347). -/
def keptChildren (lo hi : ℚ) (vals : Fin (2 ^ 3) → ℚ) (has : Fin (2 ^ 3) → Bool) : List (Fin (2 ^ 3)) :=
  (List.finRange (2 ^ 3)).filter fun c =>
    !(decide (vals c < lo + ioNoise) || decide (hi - ioNoise < vals c)) && has c

/-- The loop that writes the octree of a hashed block (stream_conversions.cc:317-349): the bytes written, for a stack of
(scale, node). -/
def writeNodes (lo hi : ℚ) : Nat → List (ℚ × WTree) → Option (List Byte)
  | _, [] => some []
  | 0, _ :: _ => none
  | fuel + 1, (scale, t) :: stack =>
    let vals := backward 3 ⟨scale, t.details⟩
    let kept := keptChildren lo hi vals t.hasChild
    match writeNodes lo hi fuel (kept.map (fun c => (vals c, t.child c)) ++ stack) with
    | none => none
    | some rest => some (Node.bytes ⟨t.details, childBitset kept⟩ ++ rest)

/-- The same loop for the octree of a chunked block (stream_conversions.cc:474-505). -/
def writeChunkNodes (lo hi : ℚ) (s : WChunks) : Nat → List (ℚ × ChunkNode) → Option (List Byte)
  | _, [] => some []
  | 0, _ :: _ => none
  | fuel + 1, (scale, r) :: stack =>
    let vals := backward 3 ⟨scale, WChunks.details s r⟩
    let kept := keptChildren lo hi vals fun c => (s.getChild 3 chunkHeight r c).isSome
    match writeChunkNodes lo hi s fuel
        (kept.filterMap (fun c => (s.getChild 3 chunkHeight r c).map fun r' => (vals c, r')) ++ stack) with
    | none => none
    | some rest => some (Node.bytes ⟨WChunks.details s r, childBitset kept⟩ ++ rest)

/-! ## HashedBlocks -/

namespace HashedBlocks

/-- One block (stream_conversions.cc:96-115): its offset and its cells by linear index. -/
def blockBytes (e : Index 3 × DenseGrid ℚ) : List Byte :=
  index3Bytes e.1 ++ (List.range (DenseGrid.cellsPerBlock 3 4)).flatMap fun l => floatBytes (e.2 l)

/-- `mapToStream(HashedBlocks)` (stream_conversions.cc:76-119): the bytes written to a stream that stays good. -/
def bytes (m : HashedBlocks) : List Byte :=
  formatBytes kHashedBlocks ++
    HashedBlocksHeader.bytes ⟨m.config.minCellWidth, m.config.minLogOdds, m.config.maxLogOdds, m.hash.blockMap.length⟩ ++
    m.hash.blockMap.flatMap blockBytes

/-- The loop over the cells of a block (stream_conversions.cc:157-164); `n` cells are left and `l` is the next index. -/
def readCells : Nat → Nat → DenseGrid ℚ → IStream → DenseGrid ℚ × IStream
  | 0, _, g, s => (g, s)
  | n + 1, l, g, s =>
    let r := s.readFloat
    readCells n (l + 1) (fun k => if k = l then r.1 else g k) r.2

/-- The loop over the blocks (stream_conversions.cc:142-165); `none` is `return false`. -/
def readBlocks : Nat → HashedBlocks → IStream → Option (HashedBlocks × IStream)
  | 0, m, s => some (m, s)
  | n + 1, m, s =>
    if s.good then
      let k := readIndex3 s
      let hash := m.hash.getOrAllocateBlock k.1
      match hash.blockMap.getBlock k.1 with
      | none => none -- not possible: the block was just allocated
      | some g =>
        let r := readCells (DenseGrid.cellsPerBlock 3 4) 0 g k.2
        readBlocks n { m with hash := { hash with blockMap := hash.blockMap.modifyBlock k.1 fun _ => r.1 } } r.2
    else none

/-- `streamToMap(HashedBlocks)` (stream_conversions.cc:121-169). -/
def ofStream (s : IStream) : LoadResult HashedBlocks :=
  if s.good then
    let f := readFormat s
    if f.1 = kHashedBlocks then
      let h := HashedBlocksHeader.read f.2
      let config : MapBaseConfig := ⟨h.1.minCellWidth, h.1.minLogOdds, h.1.maxLogOdds⟩
      if config.isValid then
        match readBlocks h.1.numBlocks (create config 0) h.2 with
        | none => .failed
        | some (m, s) => if s.good then .ok m s else .failed
      else .abort
    else .failed
  else .failed

end HashedBlocks

/-! ## WaveletOctree -/

/-- Largest tree height for which the constructor of `Ndtree` passes its check (ndtree_inl.h:16, called with
`tree_height - 1`; morton_encoding.h:11). -/
def maxWaveletTreeHeight : Nat := 21

namespace WaveletOctree

/-- `mapToStream(WaveletOctree)` (stream_conversions.cc:171-211). -/
def bytes (m : WaveletOctree) : Option (List Byte) :=
  (iterLoop (preNext m.root) m.root.numNodes (iterStart m.root)).map fun ps =>
    formatBytes kWaveletOctree ++
      WaveletOctreeHeader.bytes
        ⟨m.config.minCellWidth, m.config.minLogOdds, m.config.maxLogOdds, m.config.treeHeight, m.rootScale⟩ ++
      ps.flatMap fun p => nodeRecord (m.root.descend p)

/-- `streamToMap(WaveletOctree)` (stream_conversions.cc:213-267). A `tree_height` that is not positive fails the validity
check of the config, like height 0 here. -/
def ofStream (s : IStream) : Option (LoadResult WaveletOctree) :=
  if s.good then
    let f := readFormat s
    if f.1 = kWaveletOctree then
      let h := WaveletOctreeHeader.read f.2
      let config : WaveletOctreeConfig := ⟨h.1.minCellWidth, h.1.minLogOdds, h.1.maxLogOdds, h.1.treeHeight.toNat⟩
      if config.isValid && decide (config.treeHeight ≤ maxWaveletTreeHeight) then
        match readNodes (readFuel h.2) [[]] (create config).root h.2 with
        | none => none
        | some (t, s) => some (if s.good then .ok ⟨config, h.1.rootScale, t⟩ s else .failed)
      else some .abort
    else some .failed
  else some .failed

end WaveletOctree

/-! ## HashedWaveletOctree -/

/-- The format id and header of both hashed wavelet map types (stream_conversions.cc:284-296, 441-453). -/
def hashedWaveletHeader (config : HashedWaveletOctreeConfig) (numBlocks : Nat) : List Byte :=
  formatBytes kHashedWaveletOctree ++
    HashedWaveletOctreeHeader.bytes
      ⟨config.minCellWidth, config.minLogOdds, config.maxLogOdds, config.treeHeight, numBlocks⟩

namespace HashedWaveletOctree

/-- One block (stream_conversions.cc:299-350). -/
def blockBytes (config : HashedWaveletOctreeConfig) (e : Index 3 × WaveletBlock) : Option (List Byte) :=
  (writeNodes config.minLogOdds config.maxLogOdds e.2.root.numNodes [(e.2.rootScale, e.2.root)]).map fun l =>
    BlockHeader.bytes ⟨e.1, e.2.rootScale⟩ ++ l

/-- `mapToStream(HashedWaveletOctree)` (stream_conversions.cc:269-354). -/
def bytes (m : HashedWaveletOctree) : Option (List Byte) :=
  (m.blocks.mapM (blockBytes m.config)).map fun l => hashedWaveletHeader m.config m.blocks.length ++ l.flatten

/-- The outcome of the loop over the blocks. Auxiliary for the loops at stream_conversions.cc:96-115, 317-349, 474-505. -/
inductive BlocksResult where
  | abort : BlocksResult
  | failed : BlocksResult
  | done (m : HashedWaveletOctree) (s : IStream) : BlocksResult

/-- The loop over the blocks (stream_conversions.cc:379-420). The constructor of a block checks the tree height. -/
def readBlocks (now : ℚ) : Nat → HashedWaveletOctree → IStream → Option BlocksResult
  | 0, m, s => some (.done m s)
  | n + 1, m, s =>
    if s.good then
      let h := BlockHeader.read s
      if m.config.treeHeight ≤ maxWaveletTreeHeight then
        let m := m.getOrAllocateBlock h.1.offset now
        match m.blocks.getBlock h.1.offset with
        | none => none -- not possible: the block was just allocated
        | some b =>
          match readNodes (readFuel h.2) [[]] b.root h.2 with
          | none => none
          | some (t, s) =>
            let b' : WaveletBlock := { b with rootScale := h.1.rootScale, root := t }
            readBlocks now n { m with blocks := m.blocks.modifyBlock h.1.offset fun _ => b' } s
      else some .abort
    else some .failed

/-- Default of `only_prune_blocks_if_unused_for` (hashed_wavelet_octree.h:34). -/
def defaultOnlyPruneBlocksIfUnusedFor : ℚ := 5

/-- `streamToMap(HashedWaveletOctree)` (stream_conversions.cc:356-424). -/
def ofStream (now : ℚ) (s : IStream) : Option (LoadResult HashedWaveletOctree) :=
  if s.good then
    let f := readFormat s
    if f.1 = kHashedWaveletOctree then
      let h := HashedWaveletOctreeHeader.read f.2
      let config : HashedWaveletOctreeConfig :=
        ⟨h.1.minCellWidth, h.1.minLogOdds, h.1.maxLogOdds, h.1.treeHeight.toNat, defaultOnlyPruneBlocksIfUnusedFor⟩
      if config.isValid then
        match readBlocks now h.1.numBlocks (create config) h.2 with
        | none => none
        | some .abort => some .abort
        | some .failed => some .failed
        | some (.done m s) => some (if s.good then .ok m s else .failed)
      else some .abort
    else some .failed
  else some .failed

end HashedWaveletOctree

namespace HashedChunkedWaveletOctree

/-- A bound on the number of nodes of a block. Auxiliary for the loops at stream_conversions.cc:142-165, 243-263, 399-419. -/
def maxNumNodes (b : ChunkedWaveletBlock) : Nat := (2 ^ 3) ^ (b.treeHeight + 1)

/-- One block (stream_conversions.cc:456-506). -/
def blockBytes (config : HashedWaveletOctreeConfig) (e : Index 3 × ChunkedWaveletBlock) : Option (List Byte) :=
  (writeChunkNodes config.minLogOdds config.maxLogOdds e.2.chunks (maxNumNodes e.2) [(e.2.rootScale, ChunkNode.root)]).map
    fun l => BlockHeader.bytes ⟨e.1, e.2.rootScale⟩ ++ l

/-- `mapToStream(HashedChunkedWaveletOctree)` (stream_conversions.cc:426-510). -/
def bytes (m : HashedChunkedWaveletOctree) : Option (List Byte) :=
  (m.blocks.mapM (blockBytes m.config)).map fun l => hashedWaveletHeader m.config m.blocks.length ++ l.flatten

end HashedChunkedWaveletOctree

/-! ## Any map -/

/-- A `MapBase` object (map_base.h:59). -/
inductive AnyMap where
  | hashedBlocks (m : HashedBlocks) : AnyMap
  | waveletOctree (m : WaveletOctree) : AnyMap
  | hashedWavelet (m : HashedWaveletOctree) : AnyMap
  | hashedChunked (m : HashedChunkedWaveletOctree) : AnyMap
  | volumetricOctree (m : VolumetricOctree) : AnyMap

/-- The bytes `mapToStream` writes (stream_conversions.cc:8-32): `some none` for a map type that is not supported, `none` if a
loop runs out of fuel. -/
def AnyMap.bytes : AnyMap → Option (Option (List Byte))
  | .hashedBlocks m => some (some m.bytes)
  | .waveletOctree m => m.bytes.map some
  | .hashedWavelet m => m.bytes.map some
  | .hashedChunked m => m.bytes.map some
  | .volumetricOctree _ => some none

/-- `mapToStream(MapBase)` (stream_conversions.cc:8-32): the returned flag and the stream afterwards. The writers issue many
`write` calls; as a write to a stream that is not good has no effect, their sequence has the effect of one write of all
bytes. -/
def mapToStream (m : AnyMap) (s : OStream) : Option (Bool × OStream) :=
  m.bytes.map fun r =>
    match r with
    | none => (false, s)
    | some l => if s.good then ((s.write l).good, s.write l) else (false, s)

/-- What `streamToMap` does: end the process or return a flag, with the new value of the map pointer (`none` is
`nullptr`) (stream_conversions.cc:34-74). -/
inductive StreamToMap where
  | abort : StreamToMap
  | returned (ok : Bool) (map : Option AnyMap) : StreamToMap

/-- The result of one case of the switch: the pointer is assigned only on success (stream_conversions.cc:34-74). -/
def StreamToMap.ofLoad {α : Type} (old : Option AnyMap) (wrap : α → AnyMap) : LoadResult α → StreamToMap
  | .abort => .abort
  | .failed => .returned false old
  | .ok m _ => .returned true (some (wrap m))

/-- `streamToMap(MapBase::Ptr)` (stream_conversions.cc:34-74). -/
def streamToMap (now : ℚ) (s : IStream) (old : Option AnyMap) : Option StreamToMap :=
  if s.good then
    let f := peekFormat s
    if f.1 = kHashedBlocks then some (.ofLoad old .hashedBlocks (HashedBlocks.ofStream f.2))
    else if f.1 = kWaveletOctree then (WaveletOctree.ofStream f.2).map (.ofLoad old .waveletOctree)
    else if f.1 = kHashedWaveletOctree then (HashedWaveletOctree.ofStream now f.2).map (.ofLoad old .hashedWavelet)
    else some (.returned false none)
  else some (.returned false old)

/-! ## Files -/

/-- Files by path. What file_conversions.cc:6-55 reads and writes. -/
abbrev FileSystem := String → Option (List Byte)

/-- `mapToFile` (file_conversions.cc:6-30): the returned flag and the files afterwards. `canOpen` says whether the file can be
opened for writing and `room` how many bytes fit on the disk. Opening an existing file truncates it. -/
def mapToFile (fs : FileSystem) (path : String) (canOpen : Bool) (room : Nat) (m : AnyMap) : Option (Bool × FileSystem) :=
  if path = "" then some (false, fs)
  else if canOpen then
    (mapToStream m ⟨[], room, true⟩).map fun r => (r.1, fun p => if p = path then some r.2.written else fs p)
  else some (false, fs)

/-- `fileToMap` (file_conversions.cc:32-55). A file that does not exist or cannot be opened leaves the map pointer alone. -/
def fileToMap (now : ℚ) (fs : FileSystem) (path : String) (canOpen : Bool) (old : Option AnyMap) : Option StreamToMap :=
  if path = "" then some (.returned false old)
  else
    match fs path with
    | none => some (.returned false old)
    | some l => if canOpen then streamToMap now ⟨l, true⟩ old else some (.returned false old)

end Wavemap
