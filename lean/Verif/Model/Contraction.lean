import Verif.Model.SingleMaps
import Verif.Model.SinglePrecision
/-!
# Fused multiply-adds

The library is compiled with `-march=native` and the compiler's default floating point contraction, so that `a * b + c` may be computed with a single rounding. These are
the functions of `Verif.Model.SinglePrecision` and `Verif.Model.SingleMaps` in which a sum has a product or quotient as an operand, where the compiler may leave out the
rounding `q` of the latter, in each place or not.
-/
namespace Wavemap
namespace Contracted
open Haar
variable (q : ℚ → ℚ)

/-- A choice of roundings: for each value, rounded or not. Auxiliary: the freedom that the compiler has under the
options of library/cpp/cmake/wavemap-extras.cmake:25-35. Simplification: it makes the same choice for equal values. -/
def Choice (q : ℚ → ℚ) : Prop := ∀ x, q x = fl x ∨ q x = x

/-- `pointToNearestIndex` (index_conversions.h:31-35) with `scaledPointToNearestIndex` (index_conversions.h:16-19). -/
def pointToNearestIndex {d : Nat} (p : Point d) (cellWidthInv : ℚ) : Index d := fun i => cppRound (fl (q (p i * cellWidthInv) - 1 / 2))

/-- `BackwardSingleChild` (haar_transform_inl.h:141-158). -/
def backwardSingleChild (parent : Parent 3) (c : Fin (2 ^ 3)) : ℚ :=
  (List.finRange (2 ^ 3 - 1)).foldl
    (fun scale i =>
      let parentIdx := i.val + 1
      let contribution := q (parent.details i / (exp2 (popcount parentIdx) : Nat))
      fl (scale + (if parity (andNot parentIdx c.val) then -contribution else contribution)))
    parent.scale

/-- The update of the details with `ForwardSingleChild` in `addToCellValue` (haar_transform_inl.h:68-85, wavelet_octree_inl.h:122-146,
hashed_wavelet_octree_block.cc:79-105). -/
def addDetails (details : Details 3) (u : ℚ) (c : Fin (2 ^ 3)) : Details 3 := fun i => fl (details i + (Rounded.forwardSingleChild q u c).details i)

/-- One beam of the in-place forward lifting step (haar_transform_inl.h:15-37). -/
def forwardBeam (dimIdx : Nat) (a : Coeffs 3) (beam : Nat) : Coeffs 3 :=
  let s := squeezeIn beam false dimIdx
  let t := squeezeIn beam true dimIdx
  let a := set a t (fl (getLt a t - getLt a s))
  set a s (fl (getLt a s + q (1 / 2 * getLt a t)))

/-- `ForwardLifted` (haar_transform_inl.h:8-40). -/
def forward (children : Coeffs 3) : Parent 3 :=
  Parent.ofArray <| (List.range 3).foldl (fun a dimIdx => (List.range (exp2 2)).foldl (forwardBeam q dimIdx) a) children

/-- One beam of the in-place inverse lifting step (haar_transform_inl.h:94-113). -/
def backwardBeam (dimIdx : Nat) (a : Coeffs 3) (beam : Nat) : Coeffs 3 :=
  let s := squeezeIn beam false dimIdx
  let t := squeezeIn beam true dimIdx
  let a := set a s (fl (getLt a s - q (1 / 2 * getLt a t)))
  set a t (fl (getLt a t + getLt a s))

/-- `BackwardLifted` (haar_transform_inl.h:87-116). -/
def backward (parent : Parent 3) : Coeffs 3 :=
  (List.range 3).foldl (fun a dimIdx => (List.range (exp2 2)).foldl (backwardBeam q dimIdx) a) parent.get

end Contracted
end Wavemap
