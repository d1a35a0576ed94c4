import Verif.Model.IntMath
import Mathlib.Algebra.Order.Field.Rat
/-!
# Haar wavelet transform

Models `library/cpp/include/wavemap/core/map/cell_types/haar_coefficients.h`,
`haar_transform.h` and `impl/haar_transform_inl.h`, with `ValueT = ℚ` (exact arithmetic).
Arrays of `2^dim` values are functions `Fin (2^dim) → ℚ`.
-/
namespace Wavemap

/-- `HaarCoefficients::CoefficientsArray` (haar_coefficients.h:20). -/
abbrev Coeffs (d : Nat) := Fin (2 ^ d) → ℚ

/-- `HaarCoefficients::Details` (haar_coefficients.h:23-71): the `2^dim - 1` detail coefficients. -/
abbrev Details (d : Nat) := Fin (2 ^ d - 1) → ℚ

/-- `HaarCoefficients::Parent` (haar_coefficients.h:73-135). -/
@[ext] structure Parent (d : Nat) where
  scale : ℚ
  details : Details d

namespace Parent
variable {d : Nat}

/-- Constructor from an array (haar_coefficients.h:80-82): `scale = a[0]`, `details[i] = a[i+1]`. -/
def ofArray (a : Coeffs d) : Parent d :=
  ⟨a ⟨0, Nat.two_pow_pos d⟩, fun i => a ⟨i.val + 1, by omega⟩⟩

/-- `operator[]` (haar_coefficients.h:91-96). -/
def get (p : Parent d) (i : Fin (2 ^ d)) : ℚ :=
  if h : i.val = 0 then p.scale else p.details ⟨i.val - 1, by omega⟩

/-- `operator+` (haar_coefficients.h:101-103). -/
def add (p q : Parent d) : Parent d := ⟨p.scale + q.scale, fun i => p.details i + q.details i⟩

/-- `operator*` with a scalar (haar_coefficients.h:115-117). -/
def smul (a : ℚ) (p : Parent d) : Parent d := ⟨a * p.scale, fun i => a * p.details i⟩

end Parent

namespace Haar

/-- `bit_ops::squeeze_in` (bit_operations.h:148-154): insert `bit` at `position`. The C++ computes
`upper = bitstring & ~mask` on a non-negative value, i.e. the value with its low bits cleared. -/
def squeezeIn (bitstring : Nat) (bit : Bool) (position : Nat) : Nat :=
  let lower := bitstring &&& ((1 <<< position) - 1)
  let upper := (bitstring >>> position) <<< position
  (upper <<< 1) ||| (bit.toNat <<< position) ||| lower

/-- `a & ~b` on non-negative words. Used at haar_transform_inl.h and bit_operations.h. -/
def andNot (a b : Nat) : Nat := a ^^^ (a &&& b)

/-- Write `a[i] = v`. Auxiliary; the assignments to array elements in haar_transform_inl.h. -/
def set {n : Nat} (a : Fin n → ℚ) (i : Nat) (v : ℚ) : Fin n → ℚ := fun j => if j.val = i then v else a j

/-- Read `a[i]`; all indices used by the transforms are in range (`getLt` is only ever applied below
`n`, shown in `Verif.Lemmas.Haar` by evaluating the loops). Auxiliary; the reads of array elements in haar_transform_inl.h. -/
def getLt {n : Nat} (a : Fin n → ℚ) (i : Nat) : ℚ := if h : i < n then a ⟨i, h⟩ else 0

/-- One beam of the in-place forward lifting step (haar_transform_inl.h:28-37 and, for axis 0,
15-25: the first pass reads from the input array, which has the same effect as in place). -/
def forwardBeam {n : Nat} (dimIdx : Nat) (a : Fin n → ℚ) (beam : Nat) : Fin n → ℚ :=
  let s := squeezeIn beam false dimIdx
  let t := squeezeIn beam true dimIdx
  let a := set a t (getLt a t - getLt a s)
  set a s (getLt a s + 1 / 2 * getLt a t)

/-- `ForwardLifted` (haar_transform_inl.h:8-40). -/
def forwardLifted (d : Nat) (children : Coeffs d) : Parent d :=
  Parent.ofArray <|
    (List.range d).foldl
      (fun a dimIdx => (List.range (exp2 (d - 1))).foldl (forwardBeam dimIdx) a) children

/-- `ForwardParallel` (haar_transform_inl.h:42-66). -/
def forwardParallel (d : Nat) (children : Coeffs d) : Parent d :=
  Parent.ofArray fun p =>
    ((List.finRange (2 ^ d)).foldl
      (fun acc c => acc + (if parity (andNot p.val c.val) then -children c else children c)) 0)
      / (exp2 (d - popcount p.val) : Nat)

/-- `ForwardSingleChild` (haar_transform_inl.h:68-85). -/
def forwardSingleChild (d : Nat) (childScale : ℚ) (c : Fin (2 ^ d)) : Parent d :=
  Parent.ofArray fun p =>
    (if parity (andNot p.val c.val) then -childScale else childScale)
      / (exp2 (d - popcount p.val) : Nat)

/-- One beam of the in-place inverse lifting step (haar_transform_inl.h:94-113). -/
def backwardBeam {n : Nat} (dimIdx : Nat) (a : Fin n → ℚ) (beam : Nat) : Fin n → ℚ :=
  let s := squeezeIn beam false dimIdx
  let t := squeezeIn beam true dimIdx
  let a := set a s (getLt a s - 1 / 2 * getLt a t)
  set a t (getLt a t + getLt a s)

/-- `BackwardLifted` (haar_transform_inl.h:87-116). -/
def backwardLifted (d : Nat) (parent : Parent d) : Coeffs d :=
  (List.range d).foldl
    (fun a dimIdx => (List.range (exp2 (d - 1))).foldl (backwardBeam dimIdx) a) parent.get

/-- `BackwardSingleChild` (haar_transform_inl.h:141-158): loop over `parent_idx = 1 .. 2^dim - 1`. -/
def backwardSingleChild (d : Nat) (parent : Parent d) (c : Fin (2 ^ d)) : ℚ :=
  (List.finRange (2 ^ d - 1)).foldl
    (fun scale i =>
      let parentIdx := i.val + 1
      let contribution := parent.details i / (exp2 (popcount parentIdx) : Nat)
      scale + (if parity (andNot parentIdx c.val) then -contribution else contribution))
    parent.scale

/-- `BackwardParallel` (haar_transform_inl.h:118-139). -/
def backwardParallel (d : Nat) (parent : Parent d) : Coeffs d := fun c =>
  (List.finRange (2 ^ d - 1)).foldl
    (fun acc i =>
      let parentIdx := i.val + 1
      let contribution := parent.details i / (exp2 (popcount parentIdx) : Nat)
      acc + (if parity (andNot parentIdx c.val) then -contribution else contribution))
    (0 + parent.scale)

/-- `HaarTransform<ValueT, dim>::forward` (haar_transform.h:50-135): parallel for 1D and 2D, lifted
otherwise. -/
def forward (d : Nat) (children : Coeffs d) : Parent d :=
  if d = 1 ∨ d = 2 then forwardParallel d children else forwardLifted d children

/-- `HaarTransform<ValueT, dim>::backward` (haar_transform.h:50-135). -/
def backward (d : Nat) (parent : Parent d) : Coeffs d :=
  if d = 1 ∨ d = 2 then backwardParallel d parent else backwardLifted d parent

end Haar
end Wavemap
