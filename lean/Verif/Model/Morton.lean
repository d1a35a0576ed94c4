import Verif.Model.IntMath
/-!
# Morton encoding

Models `library/cpp/include/wavemap/core/utils/bits/morton_encoding.h` and
`repeat_block`/`expand`/`compress` of `utils/bits/bit_operations.h`.
A 64-bit word is a `Nat`; operations that can push bits out of the word reduce modulo `2^64`.
A coordinate (`int`) is an `Int` in `[-2^31, 2^31)`.
-/
namespace Wavemap

/-- `Index<dim>` (common.h:25-27). -/
abbrev Index (d : Nat) := Fin d → Int

namespace Morton

/-- Conversion `int → uint64_t` (sign extension), as applied to the argument of
`bit_ops::expand<uint64_t>` in morton_encoding.h:83. -/
def toU64 (x : Int) : Nat := (x % 2 ^ 64).toNat

/-- Conversion `uint64_t → int` (truncation to 32-bit two's complement), as applied to the result in
morton_encoding.h:118 and 132. -/
def toI32 (x : Nat) : Int :=
  let y : Nat := x % 2 ^ 32
  if y < 2 ^ 31 then (y : Int) else (y : Int) - 2 ^ 32

/-- `kMaxTreeHeight` (morton_encoding.h:10-11). -/
def kMaxTreeHeight (dim : Nat) : Nat := 64 / dim - 1

/-- `kMaxSingleCoordinate` (morton_encoding.h:13-16). -/
def kMaxSingleCoordinate (dim : Nat) : Int :=
  if dim < 3 then 2 ^ 31 - 1 else 2 ^ kMaxTreeHeight dim - 1

/-- `bit_ops::repeat_block<uint64_t>` (bit_operations.h:172-188). -/
def repeatBlock (blockWidth blockContents : Nat) : Nat :=
  let numBlocks := 64 / blockWidth + (if 64 % blockWidth ≠ 0 then 1 else 0)
  let contents := if blockWidth < 64 then blockContents &&& (2 ^ blockWidth - 1) else blockContents
  (List.range numBlocks).foldl
    (fun result idx => result ||| ((contents <<< (idx * blockWidth)) % 2 ^ 64)) 0

/-- Number of selector bits set strictly below position `i`. Auxiliary for bit_operations.h:172-188. -/
def rank (selector i : Nat) : Nat := ((List.range i).filter fun j => selector.testBit j).length

/-- `bit_ops::expand<uint64_t>` (bit_operations.h:190-193): the x86 `pdep` instruction. Bit `i` of
the result is set iff selector bit `i` is set and the source bit numbered by the count of
lower selector bits is set. -/
def expand (source selector : Nat) : Nat :=
  (List.range 64).foldl
    (fun result i => result ||| ((selector.testBit i && source.testBit (rank selector i)).toNat <<< i)) 0

/-- `bit_ops::compress<uint64_t>` (bit_operations.h:195-199): the x86 `pext` instruction. Selected
source bits are packed to the low end in order. -/
def compress (source selector : Nat) : Nat :=
  (List.range 64).foldl
    (fun result i => result ||| ((selector.testBit i && source.testBit i).toNat <<< rank selector i)) 0

/-- `MortonByteLut::encode[byte]` (morton_encoding.h:26-34). -/
def lutEncode (dim byte : Nat) : Nat :=
  (List.range 8).foldl (fun acc b => acc ||| (((byte >>> b) &&& 1) <<< (dim * b))) 0

/-- `MortonByteLut::decode[byte]` (morton_encoding.h:36-44): bits `0, dim, 2*dim, ...` below 8. -/
def lutDecode (dim byte : Nat) : Nat :=
  (List.range (divRoundUp 8 dim)).foldl
    (fun acc k => acc ||| (((byte >>> (k * dim)) &&& 1) <<< (k * dim / dim))) 0

/-- `morton::encode`, bit-deposit variant (morton_encoding.h:79-84). -/
def encodePdep {d : Nat} (index : Index d) : Nat :=
  (List.finRange d).foldl
    (fun morton i => morton ||| expand (toU64 (index i)) ((repeatBlock d 1 <<< i.val) % 2 ^ 64)) 0

/-- `(index[dim_idx] >> shift) & kByteMask` (morton_encoding.h:93): arithmetic shift, low byte. -/
def byteOf (x : Int) (shift : Nat) : Nat := ((x >>> shift) % 256).toNat

/-- `morton::encode`, look-up-table variant (morton_encoding.h:79, 86-96). -/
def encodeLut {d : Nat} (index : Index d) : Nat :=
  [3, 2, 1, 0].foldl
    (fun morton byteIdx =>
      (List.finRange d).foldl
        (fun morton i =>
          morton ||| ((lutEncode d (byteOf (index i) (8 * byteIdx)) <<< i.val) % 2 ^ 64))
        ((morton <<< (8 * d)) % 2 ^ 64)) 0

/-- `decode_coordinate` before the final cast (morton_encoding.h:104-119).
Simplification: the C++ shift is on a promoted `int`; for `dim = 1` shifting by 32 or more is
undefined behaviour in C++ unless the shifted byte is zero, which holds for all in-range Morton
indices of non-negative coordinates. -/
def decodeCoordinateLut (dim morton coordinateIdx : Nat) : Nat :=
  let kChunkSize := dim * divRoundUp 8 dim
  let kNumBitsPerChunk := kChunkSize / dim
  let kNumChunks := 64 / kChunkSize
  (List.range kNumChunks).foldl
    (fun coordinate c =>
      coordinate ||| (lutDecode dim ((morton >>> (kChunkSize * c + coordinateIdx)) &&& 255)
        <<< (kNumBitsPerChunk * c))) 0

/-- `morton::decode`, look-up-table variant (morton_encoding.h:135-137). -/
def decodeLut (d morton : Nat) : Index d := fun i => toI32 (decodeCoordinateLut d morton i.val)

/-- `morton::decode`, bit-extract variant (morton_encoding.h:129-133). -/
def decodePext (d morton : Nat) : Index d := fun i =>
  toI32 (compress morton ((repeatBlock d 1 <<< i.val) % 2 ^ 64))

end Morton
end Wavemap
