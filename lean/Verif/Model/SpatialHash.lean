import Verif.Model.NdtreeIndex
import Mathlib.Data.Fintype.Basic
import Mathlib.Algebra.Order.Field.Rat
/-!
# Spatial hash, dense block hash and the hashed-blocks map

Models `data_structure/{spatial_hash.h,dense_grid.h,dense_block_hash.h}` with their `impl/` files,
`map/map_base.h`, `map/hashed_blocks.h`, `map/impl/hashed_blocks_inl.h` (all under
`library/cpp/include/wavemap/core`) and `library/cpp/src/core/map/hashed_blocks.cc`.
-/
namespace Wavemap

/-- `SpatialHash::block_map_` (spatial_hash.h:53): an `std::unordered_map`, modelled by the list of its
entries in iteration order. Hash values and rehashing are not modelled; no result may depend on the order. -/
abbrev SpatialHash (d : Nat) (β : Type) := List (Index d × β)

namespace SpatialHash
variable {d : Nat} {β : Type}

/-- `getBlock` (spatial_hash_inl.h:73-95). -/
def getBlock : SpatialHash d β → Index d → Option β
  | [], _ => none
  | (k, b) :: m, key => if k = key then some b else getBlock m key

/-- `hasBlock` (spatial_hash_inl.h:46-50). -/
def hasBlock (m : SpatialHash d β) (key : Index d) : Bool := (m.getBlock key).isSome

/-- `getOrAllocateBlock` (spatial_hash_inl.h:97-104), `try_emplace`: the map after the call. -/
def getOrAllocateBlock (m : SpatialHash d β) (key : Index d) (dflt : β) : SpatialHash d β :=
  match m.getBlock key with
  | some _ => m
  | none => (key, dflt) :: m

/-- Writing through the reference returned by `getBlock`/`getOrAllocateBlock` (spatial_hash_inl.h:80-104). -/
def modifyBlock (m : SpatialHash d β) (key : Index d) (f : β → β) : SpatialHash d β :=
  m.map fun e => if e.1 = key then (e.1, f e.2) else e

/-- `eraseBlock` (spatial_hash_inl.h:52-56): the map after the call. -/
def eraseBlock (m : SpatialHash d β) (key : Index d) : SpatialHash d β :=
  m.filter fun e => decide (e.1 ≠ key)

/-- `eraseBlockIf` (spatial_hash_inl.h:58-71). The indicator gets the block by mutable reference: it
returns the modified block and whether to erase it. -/
def eraseBlockIf (m : SpatialHash d β) (indicator : Index d → β → β × Bool) : SpatialHash d β :=
  m.filterMap fun e =>
    let r := indicator e.1 e.2
    if r.2 then none else some (e.1, r.1)

/-- `forEachBlock` with a visitor that modifies the block in place (spatial_hash_inl.h:106-113). -/
def mapBlocks (m : SpatialHash d β) (f : Index d → β → β) : SpatialHash d β :=
  m.map fun e => (e.1, f e.1 e.2)

/-- `getMinBlockIndex` (spatial_hash_inl.h:16-29); `2147483647` is `numeric_limits<int>::max()`. -/
def getMinBlockIndex (m : SpatialHash d β) : Index d :=
  if m.isEmpty then fun _ => 0
  else m.foldl (fun acc e i => min (acc i) (e.1 i)) fun _ => 2147483647

/-- `getMaxBlockIndex` (spatial_hash_inl.h:31-44). -/
def getMaxBlockIndex (m : SpatialHash d β) : Index d :=
  if m.isEmpty then fun _ => 0
  else m.foldl (fun acc e i => max (acc i) (e.1 i)) fun _ => -2147483648

end SpatialHash

/-- `DenseGrid::data_` (dense_grid.h:56) addressed by linear index. The array has
`2^(dim * log2 cells_per_side)` entries; that all accesses stay below it is part of the theorems. -/
abbrev DenseGrid (α : Type) := Nat → α

namespace DenseGrid
variable {α : Type}

/-- `kCellsPerBlock` (dense_grid.h:21-22). -/
def cellsPerBlock (d log2 : Nat) : Nat := exp2 (d * log2)

/-- `at` (dense_grid.h:41-50), for a block with `2^log2` cells per side. -/
def «at» {d : Nat} (log2 : Nat) (g : DenseGrid α) (cell : Index d) : α :=
  g (indexToLinearIndex (2 ^ log2) cell).toNat

/-- Assignment through the reference returned by `at` (dense_grid.h:41-45). -/
def setAt {d : Nat} (log2 : Nat) (g : DenseGrid α) (cell : Index d) (a : α) : DenseGrid α :=
  fun l => if l = (indexToLinearIndex (2 ^ log2) cell).toNat then a else g l

end DenseGrid

/-- `DenseBlockHash<CellDataT, dim, 2^log2>` (dense_block_hash.h:9-76). -/
structure DenseBlockHash (d log2 : Nat) (α : Type) where
  defaultValue : α
  blockMap : SpatialHash d (DenseGrid α)

namespace DenseBlockHash
variable {d log2 : Nat} {α : Type}

/-- Constructor (dense_block_hash.h:21-22). -/
def create (dv : α) : DenseBlockHash d log2 α := ⟨dv, []⟩

/-- `getOrAllocateBlock` (dense_block_hash_inl.h:38-43), new blocks filled with the default value
(dense_grid.h:26-28). -/
def getOrAllocateBlock (m : DenseBlockHash d log2 α) (block : Index d) : DenseBlockHash d log2 α :=
  { m with blockMap := m.blockMap.getOrAllocateBlock block fun _ => m.defaultValue }

/-- `eraseBlock` (dense_block_hash_inl.h:11-15). -/
def eraseBlock (m : DenseBlockHash d log2 α) (block : Index d) : DenseBlockHash d log2 α :=
  { m with blockMap := m.blockMap.eraseBlock block }

/-- `clear` (dense_block_hash.h:26). -/
def clear (m : DenseBlockHash d log2 α) : DenseBlockHash d log2 α := { m with blockMap := [] }

/-- `getValue` (dense_block_hash_inl.h:57-66). -/
def getValue (m : DenseBlockHash d log2 α) (index : Index d) : Option α :=
  (m.blockMap.getBlock (indexToBlockIndex log2 index)).map fun b =>
    b.at log2 (indexToCellIndex log2 index)

/-- `hasValue` (dense_block_hash_inl.h:45-49). -/
def hasValue (m : DenseBlockHash d log2 α) (index : Index d) : Bool := (m.getValue index).isSome

/-- `getOrAllocateValue` (dense_block_hash_inl.h:68-76) followed by a write through the returned
reference: the new value may depend on the old one. -/
def updateValue (m : DenseBlockHash d log2 α) (index : Index d) (f : α → α) : DenseBlockHash d log2 α :=
  let b := indexToBlockIndex log2 index
  let c := indexToCellIndex log2 index
  let m' := m.getOrAllocateBlock b
  { m' with blockMap := m'.blockMap.modifyBlock b fun g => g.setAt log2 c (f (g.at log2 c)) }

/-- `getValueOrDefault` (dense_block_hash_inl.h:78-86). -/
def getValueOrDefault (m : DenseBlockHash d log2 α) (index : Index d) : α :=
  match m.getValue index with
  | some v => v
  | none => m.defaultValue

/-- `forEachLeaf` (dense_block_hash_inl.h:126-142): the visited (index, value) pairs in order. -/
def forEachLeaf (m : DenseBlockHash d log2 α) : List (Index d × α) :=
  m.blockMap.flatMap fun e =>
    (List.range (DenseGrid.cellsPerBlock d log2)).map fun l =>
      (cellAndBlockIndexToIndex (2 ^ log2) e.1 (linearIndexToIndex (2 ^ log2) d l), e.2 l)

end DenseBlockHash

/-- `MapBaseConfig` (map_base.h:33-54). -/
structure MapBaseConfig where
  minCellWidth : ℚ
  minLogOdds : ℚ
  maxLogOdds : ℚ

/-- `MapBaseConfig::isValid` (map_base.cc:11-18). -/
def MapBaseConfig.isValid (c : MapBaseConfig) : Bool :=
  decide (0 < c.minCellWidth) && decide (c.minLogOdds < c.maxLogOdds)

/-- `std::clamp(v, lo, hi)` as used by `MapBase::clamp` (map_base.h:121-123):
`(v < lo) ? lo : (hi < v) ? hi : v`. -/
def clamp (lo hi v : ℚ) : ℚ := if v < lo then lo else if hi < v then hi else v

/-- `HashedBlocks` (hashed_blocks.h:14-53): `DenseBlockHash<FloatingPoint, 3, 16>` with a config. -/
structure HashedBlocks where
  config : MapBaseConfig
  hash : DenseBlockHash 3 4 ℚ

namespace HashedBlocks

/-- Constructor (hashed_blocks.h:24-26); `config.checkValid()` is the precondition `isValid`. -/
def create (config : MapBaseConfig) (defaultValue : ℚ) : HashedBlocks := ⟨config, .create defaultValue⟩

/-- `getCellValue` (hashed_blocks_inl.h:12-14). -/
def getCellValue (m : HashedBlocks) (index : Index 3) : ℚ := m.hash.getValueOrDefault index

/-- `setCellValue` (hashed_blocks_inl.h:16-19). -/
def setCellValue (m : HashedBlocks) (index : Index 3) (v : ℚ) : HashedBlocks :=
  { m with hash := m.hash.updateValue index fun _ => v }

/-- `addToCellValue` (hashed_blocks_inl.h:21-25), `clampedAdd` (map_base.h:124-126). -/
def addToCellValue (m : HashedBlocks) (index : Index 3) (update : ℚ) : HashedBlocks :=
  { m with hash := m.hash.updateValue index fun v => clamp m.config.minLogOdds m.config.maxLogOdds (v + update) }

/-- `threshold` (hashed_blocks.h:30-32): no-op. -/
def threshold (m : HashedBlocks) : HashedBlocks := m

/-- `prune` (hashed_blocks.cc:15-23). -/
def prune (m : HashedBlocks) : HashedBlocks :=
  { m with hash := { m.hash with
      blockMap := m.hash.blockMap.eraseBlockIf fun _ b =>
        (b, (List.range (DenseGrid.cellsPerBlock 3 4)).all fun l => decide (b l = m.hash.defaultValue)) } }

/-- `clear` (hashed_blocks.h:34). -/
def clear (m : HashedBlocks) : HashedBlocks := { m with hash := m.hash.clear }

/-- `forEachLeaf` (hashed_blocks.cc:25-32): the visited (node index, value) pairs in order. -/
def forEachLeaf (m : HashedBlocks) : List (NdtreeIndex 3 × ℚ) :=
  m.hash.forEachLeaf.map fun e => (⟨0, e.1⟩, e.2)

/-- `getMinIndex` (hashed_blocks.cc:4-6). -/
def getMinIndex (m : HashedBlocks) : Index 3 := fun i => 16 * m.hash.blockMap.getMinBlockIndex i

/-- `getMaxIndex` (hashed_blocks.cc:8-13). -/
def getMaxIndex (m : HashedBlocks) : Index 3 :=
  if m.hash.blockMap.isEmpty then fun _ => 0
  else fun i => 16 * (m.hash.blockMap.getMaxBlockIndex i + 1) - 1

end HashedBlocks
end Wavemap
