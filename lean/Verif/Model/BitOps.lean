/-!
# Single bits and rotations

Models the remaining functions of `library/cpp/include/wavemap/core/utils/bits/bit_operations.h` on words of `w` bits. Shifting a word by its width or more, or by a
negative number, is undefined behaviour: `none`. Simplification: types narrower than `int` are promoted to it before shifting, so that they allow larger shifts than modelled.
-/
namespace Wavemap.BitOps

/-- `a << b` (used throughout bit_operations.h). -/
def shl {w : Nat} (x : BitVec w) (s : Nat) : Option (BitVec w) := if s < w then some (x <<< s) else none

/-- `a >> b` for unsigned words (used throughout bit_operations.h). -/
def shr {w : Nat} (x : BitVec w) (s : Nat) : Option (BitVec w) := if s < w then some (x >>> s) else none

/-- `is_bit_set` (bit_operations.h:108-111). -/
def isBitSet {w : Nat} (x : BitVec w) (i : Nat) : Option Bool := (shr x i).map fun y => y &&& 1#w != 0#w

/-- `set_bit` (bit_operations.h:113-116). -/
def setBit {w : Nat} (x : BitVec w) (i : Nat) : Option (BitVec w) := (shl 1#w i).map fun y => x ||| y

/-- `unset_bit` (bit_operations.h:118-121). -/
def unsetBit {w : Nat} (x : BitVec w) (i : Nat) : Option (BitVec w) := (shl 1#w i).map fun y => x &&& ~~~y

/-- `set_bit` with a value (bit_operations.h:123-126). -/
def setBitTo {w : Nat} (x : BitVec w) (i : Nat) (v : Bool) : Option (BitVec w) :=
  (unsetBit x i).bind fun y => (shl (BitVec.ofNat w v.toNat) i).map fun z => y ||| z

/-- `mask` of the rotations (bit_operations.h:131, 141): `~0 >> (w - width)`; the shift is in range because `static_assert(width <= w)` and the width is not 0. -/
def mask (w width : Nat) : BitVec w := BitVec.allOnes w >>> (w - width)

/-- `rotate_left` (bit_operations.h:128-136). `width - shift` may not be negative. -/
def rotateLeft {w : Nat} (width : Nat) (x : BitVec w) (shift : Nat) : Option (BitVec w) :=
  let result := x &&& mask w width
  (shl result shift).bind fun a => if width < shift then none else (shr result (width - shift)).map fun b => (a ||| b) &&& mask w width

/-- `rotate_right` (bit_operations.h:138-146). -/
def rotateRight {w : Nat} (width : Nat) (x : BitVec w) (shift : Nat) : Option (BitVec w) :=
  let result := x &&& mask w width
  (shr result shift).bind fun a => if width < shift then none else (shl result (width - shift)).map fun b => (a ||| b) &&& mask w width

end Wavemap.BitOps
