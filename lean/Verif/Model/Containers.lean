import Mathlib.Data.Rat.Floor
import Mathlib.Algebra.Order.Ring.Abs
/-!
# Bucket queue and sparse vector

Models `data_structure/bucket_queue.h`, `data_structure/impl/bucket_queue_inl.h` and `data_structure/sparse_vector.h`
(all under `library/cpp/include/wavemap/core`). Accesses outside a container, which are undefined behaviour in the
code, give `none`.
-/
namespace Wavemap

/-- `BucketQueue<ValueT>` (bucket_queue.h:18-53). The keys (`FloatingPoint` in the code) are in any ordered field with a
floor function: `ℚ` where the queue is executed, `ℝ` where the keys are square roots. -/
structure BucketQueue (κ α : Type) where
  numBuckets : Nat
  maxKey : κ
  buckets : List (List α)
  last : Nat
  size : Nat

namespace BucketQueue
variable {κ α : Type} [Field κ] [LinearOrder κ] [IsStrictOrderedRing κ] [FloorRing κ]

/-- Constructor (bucket_queue_inl.h:7-14). -/
def create (numBuckets : Nat) (maxKey : κ) : BucketQueue κ α :=
  ⟨numBuckets, maxKey, List.replicate numBuckets [], 0, 0⟩

/-- `setNumBuckets` (bucket_queue_inl.h:16-24): does not reset `last_bucket_index_`. -/
def setNumBuckets (q : BucketQueue κ α) (numBuckets : Nat) (maxKey : κ) : BucketQueue κ α :=
  { q with numBuckets := numBuckets, maxKey := maxKey, buckets := List.replicate numBuckets [], size := 0 }

/-- `clear` (bucket_queue_inl.h:26-32). -/
def clear (q : BucketQueue κ α) : BucketQueue κ α :=
  { q with buckets := List.replicate q.numBuckets [], last := 0, size := 0 }

/-- `empty` (bucket_queue.h:27). -/
def empty (q : BucketQueue κ α) : Bool := q.size == 0

/-- `computeBucketIndex` (bucket_queue.h:34-41). The conversion to `int` is assumed not to overflow. -/
def computeBucketIndex (numBuckets : Nat) (maxKey key : κ) : Int :=
  let i := ⌊|key| / maxKey * ((numBuckets : κ) - 1)⌋
  if (numBuckets : Int) ≤ i then (numBuckets : Int) - 1 else i

/-- `push` (bucket_queue_inl.h:34-43). -/
def push (q : BucketQueue κ α) (key : κ) (value : α) : Option (BucketQueue κ α) :=
  let i := computeBucketIndex q.numBuckets q.maxKey key
  if 0 ≤ i then
    match q.buckets[i.toNat]? with
    | some b => some { q with
        last := if i < q.last then i.toNat else q.last
        buckets := q.buckets.set i.toNat (b ++ [value])
        size := q.size + 1 }
    | none => none
  else none

/-- The loop `while (last_bucket_index_ < num_buckets_ && buckets_[last_bucket_index_].empty()) ++last_bucket_index_`
(bucket_queue_inl.h:50-53, 64-67); `fuel` bounds the number of iterations and is started at `numBuckets`. -/
def skipEmpty (q : BucketQueue κ α) : Nat → Nat → Nat
  | 0, l => l
  | fuel + 1, l => if l < q.numBuckets ∧ (q.buckets[l]?).map List.isEmpty = some true then skipEmpty q fuel (l + 1) else l

/-- `pop` (bucket_queue_inl.h:45-58). -/
def pop (q : BucketQueue κ α) : Option (BucketQueue κ α) :=
  if q.empty then some q
  else
    let l := q.skipEmpty q.numBuckets q.last
    if l < q.numBuckets then
      match q.buckets[l]? with
      | some (_ :: r) => some { q with last := l, buckets := q.buckets.set l r, size := q.size - 1 }
      | _ => none
    else some { q with last := l }

/-- `front` (bucket_queue_inl.h:60-69): the returned element and the queue afterwards. -/
def front (q : BucketQueue κ α) : Option (α × BucketQueue κ α) :=
  let l := q.skipEmpty q.numBuckets q.last
  match q.buckets[l]? with
  | some (v :: _) => some (v, { q with last := l })
  | _ => none

end BucketQueue

/-- `SparseVector<T, max_size, default_value>` (sparse_vector.h:8-52). -/
structure SparseVector (w : Nat) (α : Type) where
  bitmask : BitVec w
  compacted : List α

namespace SparseVector
variable {w : Nat} {α : Type}

/-- `SparseVector()` (sparse_vector.h:14, 46-47). -/
def create : SparseVector w α := ⟨0, []⟩

/-- `std::bitset::count`. Used at sparse_vector.h:16. -/
def count (b : BitVec w) : Nat := ((List.range w).filter fun i => b.getLsbD i).length

/-- `size` (sparse_vector.h:16). -/
def size (v : SparseVector w α) : Nat := count v.bitmask

/-- `has` (sparse_vector.h:20), for `idx < max_size` (`std::bitset::test` throws otherwise). -/
def has (v : SparseVector w α) (idx : Nat) : Bool := v.bitmask.getLsbD idx

/-- `((kOnes << idx).flip() & bitmask_).count()` (sparse_vector.h:24, 31). -/
def sparseIdx (v : SparseVector w α) (idx : Nat) : Nat :=
  count (~~~(BitVec.allOnes w <<< idx) &&& v.bitmask)

/-- `at` (sparse_vector.h:22-28); `none` is an access outside `compacted_vector_`. -/
def «at» (v : SparseVector w α) (dflt : α) (idx : Nat) : Option α :=
  if v.has idx then v.compacted[v.sparseIdx idx]? else some dflt

/-- `v[idx] = a` through `operator[]` (sparse_vector.h:30-38); `none` is an insertion or access outside
`compacted_vector_`. -/
def write (v : SparseVector w α) (idx : Nat) (a : α) : Option (SparseVector w α) :=
  let k := v.sparseIdx idx
  if v.has idx then
    if k < v.compacted.length then some { v with compacted := v.compacted.set k a } else none
  else
    if k ≤ v.compacted.length then
      some ⟨v.bitmask ||| BitVec.twoPow w idx, v.compacted.take k ++ a :: v.compacted.drop k⟩
    else none

end SparseVector
end Wavemap
