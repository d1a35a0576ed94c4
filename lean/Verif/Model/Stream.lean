import Mathlib.Data.Fin.Tuple.Basic
import Mathlib.Data.Fin.VecNotation
import Verif.Model.Haar
import Verif.Model.SpatialHash
/-!
# Byte streams and the fixed-size records of map files

Models `library/cpp/include/wavemap/io/{streamable_types.h,impl/streamable_types_impl.h}` and the parts of
`std::istream`/`std::ostream` they use.

The records are written by copying the bytes of `int32_t`, `uint64_t`, `uint8_t` and `float` variables, so the layout is
that of the machine. A little-endian machine with IEEE 754 binary32 floats is assumed. `FloatingPoint` is `ℚ` elsewhere in
the model, so a value can be written faithfully only if it is a binary32 number (`IsFloat32`); every `float` is one, apart
from infinities and NaN, which have no counterpart in `ℚ`, and the sign of zero, which `ℚ` does not have.
-/
namespace Wavemap

/-- A byte (`char`). The unit of streamable_types_impl.h. -/
abbrev Byte := Fin 256

/-! ## Integers and floats as bytes -/

/-- The `n` bytes of an unsigned integer, least significant first. Auxiliary for streamable_types_impl.h. -/
def leBytes : Nat → Nat → List Byte
  | 0, _ => []
  | n + 1, v => ⟨v % 256, Nat.mod_lt _ (by decide)⟩ :: leBytes n (v / 256)

/-- The unsigned integer with the given bytes. Auxiliary for streamable_types_impl.h. -/
def ofLe : List Byte → Nat
  | [] => 0
  | b :: l => b.val + 256 * ofLe l

/-- The bytes of an `Int32` (streamable_types.h:18), two's complement. -/
def int32Bytes (i : Int) : List Byte := leBytes 4 (i % 2 ^ 32).toNat

/-- The `Int32` with the given bytes (streamable_types.h:18). -/
def ofInt32Bytes (l : List Byte) : Int := if ofLe l < 2 ^ 31 then ofLe l else ofLe l - 2 ^ 32

/-- The value of a finite binary32 number: bit 31 is the sign, bits 23 to 30 the exponent field, bits 0 to 22 the
fraction. Exponent field 255 (infinities and NaN) has no value in `ℚ`; the result for it is meaningless (`Float`, streamable_types.h:19). -/
def float32OfBits (w : Nat) : ℚ :=
  let e := w / 2 ^ 23 % 256
  let m : Nat := if e = 0 then w % 2 ^ 23 else 2 ^ 23 + w % 2 ^ 23
  let a : ℚ := m * 2 ^ (max e 1) / 2 ^ 150
  if w / 2 ^ 31 % 2 = 0 then a else -a

/-- The numbers a `float` can hold (`Float`, streamable_types.h:19). -/
def IsFloat32 (q : ℚ) : Prop := ∃ w < 2 ^ 32, w / 2 ^ 23 % 256 ≠ 255 ∧ float32OfBits w = q

/-- Whether `a ≥ 0` is a 24-bit integer times `2^(e-150)`, normalised unless `e = 1`. Auxiliary for `Float` (streamable_types.h:19). -/
def fitsExponent (a : ℚ) (e : Nat) : Bool :=
  let m := a * 2 ^ 150 / 2 ^ e
  decide (m.den = 1) && decide (m.num.toNat < 2 ^ 24) && (decide (e = 1) || decide (2 ^ 23 ≤ m.num.toNat))

/-- The bit pattern of a `float` with value `q`; `0` if there is none (a `float` variable always has one).
Auxiliary for `Float` (streamable_types.h:19). -/
def float32Bits (q : ℚ) : Nat :=
  match (List.range 255).find? fun e => decide (1 ≤ e) && fitsExponent |q| e with
  | none => 0
  | some e =>
    let m := (|q| * 2 ^ 150 / 2 ^ e).num.toNat
    (if q < 0 then 2 ^ 31 else 0) + (if m < 2 ^ 23 then 0 else e * 2 ^ 23) + m % 2 ^ 23

/-- The bytes of a `Float` (streamable_types.h:19). -/
def floatBytes (q : ℚ) : List Byte := leBytes 4 (float32Bits q)

/-! ## Streams -/

/-- A `std::istream`: the bytes not yet read and `good()`. The argument of the `read` functions of streamable_types_impl.h. -/
structure IStream where
  bytes : List Byte
  good : Bool

namespace IStream

/-- `istream.read(&variable, sizeof(variable))` where the bytes of `variable` are `init`: the new bytes of `variable` and
the stream. If the stream is not good nothing is read. If it ends early, the bytes that are left are stored and the stream
is no longer good. Reading up to the last byte leaves the stream good. Used by the `read` functions of streamable_types_impl.h. -/
def read (s : IStream) (init : List Byte) : List Byte × IStream :=
  if s.good then
    if init.length ≤ s.bytes.length then (s.bytes.take init.length, ⟨s.bytes.drop init.length, true⟩)
    else (s.bytes ++ init.drop s.bytes.length, ⟨[], false⟩)
  else (init, s)

/-- A `Float` variable initialised to zero. (streamable_types_impl.h:39-50, for instance.) -/
def readFloat (s : IStream) : ℚ × IStream :=
  let r := s.read (leBytes 4 0)
  (float32OfBits (ofLe r.1), r.2)

/-- An `Int32` variable with the given initial value. (streamable_types_impl.h:11-17, for instance.) -/
def readInt32 (s : IStream) (init : Int) : Int × IStream :=
  let r := s.read (int32Bytes init)
  (ofInt32Bytes r.1, r.2)

/-- A `UInt64` variable initialised to zero. (streamable_types_impl.h:39-50, for instance.) -/
def readUInt64 (s : IStream) : Nat × IStream :=
  let r := s.read (leBytes 8 0)
  (ofLe r.1, r.2)

/-- A `UInt8` variable initialised to zero (streamable_types_impl.h:61-69). -/
def readUInt8 (s : IStream) : Nat × IStream :=
  let r := s.read (leBytes 1 0)
  (ofLe r.1, r.2)

/-- An array of `n` zero-initialised `Float`s, read one by one (streamable_types_impl.h:61-69). -/
def readFloats : (n : Nat) → IStream → (Fin n → ℚ) × IStream
  | 0, s => (Fin.elim0, s)
  | n + 1, s =>
    let v := s.readFloat
    let r := readFloats n v.2
    (Fin.cons v.1 r.1, r.2)

end IStream

/-- A `std::ostream` that can still take `room` bytes before a write error (a full disk, say).
The argument of the `write` functions of streamable_types_impl.h. -/
structure OStream where
  written : List Byte
  room : Nat
  good : Bool

/-- `ostream.write`: nothing if the stream is not good; a write that does not fit stores what fits and makes the stream
bad. Used by the `write` functions of streamable_types_impl.h. -/
def OStream.write (s : OStream) (l : List Byte) : OStream :=
  if s.good then
    if l.length ≤ s.room then ⟨s.written ++ l, s.room - l.length, true⟩
    else ⟨s.written ++ l.take s.room, 0, false⟩
  else s

/-! ## Records -/

namespace Streamable

/-- `Index3D` (streamable_types.h:21-28). -/
def index3Bytes (i : Index 3) : List Byte := int32Bytes (i 0) ++ int32Bytes (i 1) ++ int32Bytes (i 2)

/-- `Index3D::read` (streamable_types_impl.h:11-17). -/
def readIndex3 (s : IStream) : Index 3 × IStream :=
  let x := s.readInt32 0
  let y := x.2.readInt32 0
  let z := y.2.readInt32 0
  (![x.1, y.1, z.1], z.2)

/-- `HashedBlocksHeader` (streamable_types.h:37-46). -/
structure HashedBlocksHeader where
  minCellWidth : ℚ
  minLogOdds : ℚ
  maxLogOdds : ℚ
  numBlocks : Nat

/-- `HashedBlocksHeader::write` (streamable_types_impl.h:29-37). `num_blocks` is a `UInt64`. -/
def HashedBlocksHeader.bytes (h : HashedBlocksHeader) : List Byte :=
  floatBytes h.minCellWidth ++ floatBytes h.minLogOdds ++ floatBytes h.maxLogOdds ++ leBytes 8 h.numBlocks

/-- `HashedBlocksHeader::read` (streamable_types_impl.h:39-50). -/
def HashedBlocksHeader.read (s : IStream) : HashedBlocksHeader × IStream :=
  let a := s.readFloat
  let b := a.2.readFloat
  let c := b.2.readFloat
  let n := c.2.readUInt64
  (⟨a.1, b.1, c.1, n.1⟩, n.2)

/-- `WaveletOctreeNode` (streamable_types.h:48-54). -/
structure Node where
  details : Details 3
  bitset : Nat

/-- `WaveletOctreeNode::write` (streamable_types_impl.h:52-59). -/
def Node.bytes (n : Node) : List Byte := (List.ofFn n.details).flatMap floatBytes ++ leBytes 1 n.bitset

/-- `WaveletOctreeNode::read` (streamable_types_impl.h:61-69). -/
def Node.read (s : IStream) : Node × IStream :=
  let d := s.readFloats (2 ^ 3 - 1)
  let b := d.2.readUInt8
  (⟨d.1, b.1⟩, b.2)

/-- `WaveletOctreeHeader` (streamable_types.h:56-66). -/
structure WaveletOctreeHeader where
  minCellWidth : ℚ
  minLogOdds : ℚ
  maxLogOdds : ℚ
  treeHeight : Int
  rootScale : ℚ

/-- `WaveletOctreeHeader::write` (streamable_types_impl.h:71-82). -/
def WaveletOctreeHeader.bytes (h : WaveletOctreeHeader) : List Byte :=
  floatBytes h.minCellWidth ++ floatBytes h.minLogOdds ++ floatBytes h.maxLogOdds ++ int32Bytes h.treeHeight ++
    floatBytes h.rootScale

/-- `WaveletOctreeHeader::read` (streamable_types_impl.h:84-97). -/
def WaveletOctreeHeader.read (s : IStream) : WaveletOctreeHeader × IStream :=
  let a := s.readFloat
  let b := a.2.readFloat
  let c := b.2.readFloat
  let h := c.2.readInt32 0
  let r := h.2.readFloat
  (⟨a.1, b.1, c.1, h.1, r.1⟩, r.2)

/-- `HashedWaveletOctreeBlockHeader` (streamable_types.h:68-74). -/
structure BlockHeader where
  offset : Index 3
  rootScale : ℚ

/-- `HashedWaveletOctreeBlockHeader::write` (streamable_types_impl.h:99-103). -/
def BlockHeader.bytes (h : BlockHeader) : List Byte := index3Bytes h.offset ++ floatBytes h.rootScale

/-- `HashedWaveletOctreeBlockHeader::read` (streamable_types_impl.h:105-112). -/
def BlockHeader.read (s : IStream) : BlockHeader × IStream :=
  let o := readIndex3 s
  let r := o.2.readFloat
  (⟨o.1, r.1⟩, r.2)

/-- `HashedWaveletOctreeHeader` (streamable_types.h:76-86). -/
structure HashedWaveletOctreeHeader where
  minCellWidth : ℚ
  minLogOdds : ℚ
  maxLogOdds : ℚ
  treeHeight : Int
  numBlocks : Nat

/-- `HashedWaveletOctreeHeader::write` (streamable_types_impl.h:114-124). -/
def HashedWaveletOctreeHeader.bytes (h : HashedWaveletOctreeHeader) : List Byte :=
  floatBytes h.minCellWidth ++ floatBytes h.minLogOdds ++ floatBytes h.maxLogOdds ++ int32Bytes h.treeHeight ++
    leBytes 8 h.numBlocks

/-- `HashedWaveletOctreeHeader::read` (streamable_types_impl.h:126-140). -/
def HashedWaveletOctreeHeader.read (s : IStream) : HashedWaveletOctreeHeader × IStream :=
  let a := s.readFloat
  let b := a.2.readFloat
  let c := b.2.readFloat
  let h := c.2.readInt32 0
  let n := h.2.readUInt64
  (⟨a.1, b.1, c.1, h.1, n.1⟩, n.2)

/-- `StorageFormat::Id` (streamable_types.h:91). -/
def kWaveletOctree : Int := 0
/-- `StorageFormat::Id` (streamable_types.h:91). -/
def kHashedWaveletOctree : Int := 1
/-- `StorageFormat::Id` (streamable_types.h:91). -/
def kHashedBlocks : Int := 2

/-- `StorageFormat::write` (streamable_types_impl.h:142-144). -/
def formatBytes (id : Int) : List Byte := int32Bytes id

/-- `StorageFormat::read` (streamable_types_impl.h:146-150). A default-constructed `TypeSelector` has id `-1`
(`kInvalidTypeId`, type_selector.h). -/
def readFormat (s : IStream) : Int × IStream := s.readInt32 (-1)

/-- `StorageFormat::peek` (streamable_types_impl.h:152-157): after a successful read the stream is put back; after a failed one
`seekg` fails too and the stream stays bad. -/
def peekFormat (s : IStream) : Int × IStream :=
  let r := readFormat s
  (r.1, if r.2.good then s else r.2)

end Streamable
end Wavemap
