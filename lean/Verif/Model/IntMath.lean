/-!
# Integer and bit helpers

Models `library/cpp/include/wavemap/core/utils/math/int_math.h`,
`library/cpp/include/wavemap/core/utils/math/tree_math.h` and the parts of
`library/cpp/include/wavemap/core/utils/bits/bit_operations.h` they use.

`int` is modelled by `Int` and unsigned words by `Nat` with an explicit `% 2 ^ width` wherever the
C++ operation can drop bits.
-/
namespace Wavemap

/-- `int_math::exp2` (utils/math/int_math.h:10-14), `1 << exponent`.
Simplification: no wrap-around; callers keep the exponent below the word size. -/
def exp2 (e : Nat) : Nat := 1 <<< e

/-- `int_math::mult_exp2` (utils/math/int_math.h:43-46). -/
def multExp2 (v : Int) (e : Nat) : Int := v * (exp2 e : Nat)

/-- `int_math::div_exp2_floor` (utils/math/int_math.h:48): arithmetic right shift. -/
def divExp2Floor (v : Int) (e : Nat) : Int := v >>> e

/-- `int_math::div_exp2_ceil` (utils/math/int_math.h:50-52). -/
def divExp2Ceil (v : Int) (e : Nat) : Int := (v + (exp2 e : Nat) - 1) >>> e

/-- `int_math::div_exp2_floor_remainder` (utils/math/int_math.h:54-57): `value & ((1 << exp) - 1)`
on a 32-bit two's complement word. -/
def divExp2FloorRemainder (v : Int) (e : Nat) : Int :=
  (BitVec.ofInt 32 v &&& (BitVec.ofNat 32 (1 <<< e) - 1#32)).toInt

/-- `bit_ops::clz` on a 64-bit word (utils/bits/bit_operations.h:166-170): number of leading zero
bits. The C++ function is only defined for a non-zero argument (`DCHECK`). -/
def clz64 (x : Nat) : Nat := 64 - (Nat.log2 x + 1)

/-- `bit_ops::popcount` (utils/bits/bit_operations.h:156-159) on words of at most 64 bits. -/
def popcount (x : Nat) : Nat := ((List.range 64).filter fun i => x.testBit i).length

/-- `bit_ops::parity` (utils/bits/bit_operations.h:161-164). -/
def parity (x : Nat) : Bool := popcount x % 2 == 1

/-- `int_math::log2_floor` (utils/math/int_math.h:16-25), 64-bit unsigned instantiation:
`digits - clz(value) - 1`. -/
def log2Floor (x : Nat) : Nat := 64 - clz64 x - 1

/-- `int_math::log2_ceil` (utils/math/int_math.h:27-36). -/
def log2Ceil (x : Nat) : Nat := if popcount x = 1 then log2Floor x else log2Floor x + 1

/-- `int_math::is_power_of_two` (utils/math/int_math.h:38-41). -/
def isPowerOfTwo (x : Nat) : Bool := x != 0 && (x &&& (x - 1)) == 0

/-- `int_math::div_round_up` (utils/math/int_math.h:109-112). -/
def divRoundUp (n d : Nat) : Nat := n / d + (if n % d ≠ 0 then 1 else 0)

/-- `int_math::pow` (utils/math/int_math.h:89-96): the multiplication loop. -/
def powLoop (base : Nat) : Nat → Nat
  | 0 => 1
  | n + 1 => powLoop base n * base

/-- Entry `i` of `int_math::pow_sequence` (utils/math/int_math.h:98-107). -/
def powSequence (base : Nat) : Nat → Nat
  | 0 => 1
  | n + 1 => powSequence base n * base

/-- `int_math::factorial` (utils/math/int_math.h:114-121): `for (; 1 < x; --x) result *= x`. -/
def factorialLoop : Nat → Nat → Nat
  | result, 0 => result
  | result, x + 1 => if 1 < x + 1 then factorialLoop (result * (x + 1)) x else result

/-- `int_math::factorial` (int_math.h:114-121). -/
def factorial (x : Nat) : Nat := factorialLoop 1 x

/-- `int_math::binomial` (utils/math/int_math.h:123-132). -/
def binomial (n m : Nat) : Nat :=
  if n < m then 0 else if n = m then 1 else factorial n / (factorial m * factorial (n - m))

/-- `tree_math::perfect_tree::num_total_nodes` (utils/math/tree_math.h:7-10). -/
def numTotalNodes (dim treeHeight : Nat) : Nat := (exp2 (dim * treeHeight) - 1) / (exp2 dim - 1)

/-- `kMaxHeight` in `num_total_nodes_fast` (utils/math/tree_math.h:14-15). -/
def numTotalNodesMaxHeight (dim : Nat) : Nat := 64 / dim - 1

/-- `tree_math::perfect_tree::num_total_nodes_fast` (utils/math/tree_math.h:12-20). -/
def numTotalNodesFast (dim treeHeight : Nat) : Nat :=
  let kMaxHeight := numTotalNodesMaxHeight dim
  let kMaxNumNodes := numTotalNodes dim kMaxHeight
  let heightDifference := kMaxHeight - treeHeight
  kMaxNumNodes >>> (heightDifference * dim)

/-- `tree_math::perfect_tree::num_inner_nodes` (utils/math/tree_math.h:22-26). -/
def numInnerNodes (dim treeHeight : Nat) : Nat := numTotalNodes dim (treeHeight - 1)

/-- `tree_math::perfect_tree::num_leaf_nodes` (utils/math/tree_math.h:28-32). -/
def numLeafNodes (dim treeHeight : Nat) : Nat := exp2 (dim * (treeHeight - 1))

end Wavemap
