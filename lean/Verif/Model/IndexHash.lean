import Verif.Model.VoxelDisplay
import Mathlib.Data.Fin.VecNotation
/-!
# The hash of an index, and the names of the voxel layers

Models `wavemap/core/indexing/index_hashes.h` and the names that `voxel_visual.cc` gives to the layers of a block. `NdtreeIndexHash`, which only the tests use, is not modelled.
-/
namespace Wavemap
namespace IndexHash

/-- A signed 32-bit number multiplied with an unsigned 64-bit one: it is converted to 64 bits first (index_hashes.h:16-17). -/
def timesCoefficient (c : Nat) (x : Int) : Nat := (c * x % 2 ^ 64).toNat

/-- One step of `transform_reduce` (index_hashes.h:16-17). The accumulator has the type of the initial value `0u`, which is 32 bits wide: the 64-bit sum is truncated. -/
def accumulate (acc : Nat) (c : Nat) (x : Int) : Nat := (acc + timesCoefficient c x) % 2 ^ 64 % 2 ^ 32

/-- `IndexHash<3>::operator()` (index_hashes.h:10-19), with `int_math::pow_sequence<size_t, 17191u, 3>` (int_math.h) written out. -/
def hash (k : Index 3) : Nat := accumulate (accumulate (accumulate 0 1 (k 0)) 17191 (k 1)) (17191 * 17191) (k 2)

/-- The name of a layer (voxel_visual.cc:380-387); `std::to_string` writes decimal digits. -/
def layerName (block : Index 3) (depth : Nat) : String := "voxel_layer_" ++ toString (hash block) ++ "_" ++ toString depth

end IndexHash
end Wavemap
