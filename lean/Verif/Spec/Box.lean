import Verif.Model.NdtreeIndex
import Mathlib.Algebra.Order.Field.Rat
/-!
# Specification vocabulary: boxes of cells and their means

Independent of the maps: plain tables `Index 3 → ℚ`.
-/
namespace Wavemap

/-- Bit `k` of the child number `c` says whether the child is in the upper half along axis `k`. -/
def octantBit (c : Nat) (k : Fin 3) : Int := ((c / 2 ^ k.val % 2 : Nat) : Int)

/-- Mean of a table over the box of `2^h` cells per side with minimum corner `c`: the mean of the means
over its eight octants. -/
def boxMean (f : Index 3 → ℚ) : Nat → Index 3 → ℚ
  | 0, c => f c
  | h + 1, c => ((List.range 8).map fun o => boxMean f h fun k => c k + 2 ^ h * octantBit o k).sum / 8

/-- `i` lies in the box with `2^h` cells per side and minimum corner `c`. -/
def InBox (h : Nat) (c i : Index 3) : Prop := ∀ k, c k ≤ i k ∧ i k < c k + 2 ^ h

instance (h : Nat) (c i : Index 3) : Decidable (InBox h c i) := by unfold InBox; infer_instance

end Wavemap
