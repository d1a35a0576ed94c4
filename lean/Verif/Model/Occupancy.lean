import Mathlib.Algebra.Order.Ring.Abs
import Mathlib.Data.Rat.Floor
/-!
# Occupancy classes

Models `utils/query/{occupancy,occupancy_classifier}.h` and their `impl` files (under
`library/cpp/include/wavemap/core`). Masks are 8-bit words.
-/
namespace Wavemap

/-- `Occupancy::Id` (occupancy.h:12). -/
inductive OccId where
  | free | occupied | unobserved | observed | any
  deriving DecidableEq, Repr

namespace OccId

/-- Numeric value of the enumerators (occupancy.h:12). -/
def toNat : OccId → Nat
  | free => 0 | occupied => 1 | unobserved => 2 | observed => 3 | any => 4

/-- `Occupancy::toMask(Id)` (occupancy_inl.h:5-15). -/
def toMask (a : OccId) : BitVec 8 :=
  if a.toNat < 3 then 1#8 <<< a.toNat else if a.toNat = 3 then 0b011#8 else 0b111#8

end OccId

/-- `Occupancy::toMask(free, occupied, unobserved)` (occupancy_inl.h:16-19). -/
def occMaskOfBools (free occupied unobserved : Bool) : BitVec 8 :=
  (if free then 1#8 else 0#8) ||| (if occupied then 1#8 else 0#8) <<< 1 ||| (if unobserved then 1#8 else 0#8) <<< 2

/-- `OccupancyClassifier` (occupancy_classifier.h:7-45): the occupancy threshold. -/
structure OccClassifier where
  threshold : ℚ

namespace OccClassifier

/-- `kUnobservedThreshold` (occupancy_classifier.h:43). -/
def unobservedThreshold : ℚ := 1 / 1000

/-- `isUnobserved` (occupancy_classifier_inl.h:58-61). -/
def isUnobserved (v : ℚ) : Bool := decide (|v| < unobservedThreshold)

/-- `isObserved` (occupancy_classifier_inl.h:63-66). -/
def isObserved (v : ℚ) : Bool := !isUnobserved v

/-- `classify` (occupancy_classifier_inl.h:5-12). -/
def classify (c : OccClassifier) (v : ℚ) : OccId :=
  if isUnobserved v then .unobserved else if v < c.threshold then .free else .occupied

/-- `toMask(log_odds)` (occupancy_classifier_inl.h:14-22). -/
def toMask (c : OccClassifier) (v : ℚ) : BitVec 8 :=
  if isUnobserved v then OccId.unobserved.toMask
  else if v < c.threshold then OccId.free.toMask else OccId.occupied.toMask

/-- `has(region, mask)` (occupancy_classifier_inl.h:39-43). -/
def has (region mask : BitVec 8) : Bool := decide (region &&& mask ≠ 0#8)

/-- `isFully(region, mask)` (occupancy_classifier_inl.h:50-56). -/
def isFully (region mask : BitVec 8) : Bool := decide ((region &&& 0b111#8) &&& ~~~mask = 0#8)

/-- `is(log_odds, mask)` (occupancy_classifier_inl.h:29-32). -/
def is (c : OccClassifier) (v : ℚ) (mask : BitVec 8) : Bool := has (c.toMask v) mask

end OccClassifier
end Wavemap
