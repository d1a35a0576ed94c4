import Verif.Lemmas.Haar
import Mathlib.Data.Fin.VecNotation
import Mathlib.Tactic.NormNum
import Mathlib.Tactic.Linarith
/-!
# C10, C11 – Haar transform

`Haar.forward`/`Haar.backward` are what `HaarTransform<ValueT, dim>` dispatches to.
-/
namespace Wavemap
open Haar

/-! ## C10 Perfect reconstruction -/

/-- The lifted and the parallel implementations compute the same coefficients and values. -/
theorem C10_lifted_eq_parallel (d : Nat) (hd : 1 ≤ d ∧ d ≤ 3) (x : Coeffs d) (p : Parent d) :
    forwardLifted d x = forwardParallel d x ∧ backwardLifted d p = backwardParallel d p := by
  obtain rfl | rfl | rfl : d = 1 ∨ d = 2 ∨ d = 3 := by omega
  · exact ⟨(fwd_par_eq_lifted1 x).symm, (bwd_par_eq_lifted1 p).symm⟩
  · exact ⟨(fwd_par_eq_lifted2 x).symm, (bwd_par_eq_lifted2 p).symm⟩
  · exact ⟨(fwd_par_eq_lifted3 x).symm, (bwd_par_eq_lifted3 p).symm⟩

theorem forward_eq_parallel (d : Nat) (hd : 1 ≤ d ∧ d ≤ 3) (x : Coeffs d) :
    forward d x = forwardParallel d x := by
  unfold forward; split
  · rfl
  · exact (C10_lifted_eq_parallel d hd x ⟨0, fun _ => 0⟩).1

theorem backward_eq_parallel (d : Nat) (hd : 1 ≤ d ∧ d ≤ 3) (p : Parent d) :
    backward d p = backwardParallel d p := by
  unfold backward; split
  · rfl
  · exact (C10_lifted_eq_parallel d hd (fun _ => 0) p).2

/-- Compressing children and decompressing returns the children. -/
theorem C10_backward_forward (d : Nat) (hd : 1 ≤ d ∧ d ≤ 3) (children : Coeffs d) :
    backward d (forward d children) = children := by
  rw [forward_eq_parallel d hd, backward_eq_parallel d hd]
  rw [← (C10_lifted_eq_parallel d hd children ⟨0, fun _ => 0⟩).1,
    ← (C10_lifted_eq_parallel d hd children _).2]
  obtain rfl | rfl | rfl : d = 1 ∨ d = 2 ∨ d = 3 := by omega
  · exact bwd_fwd_lifted1 _
  · exact bwd_fwd_lifted2 _
  · exact bwd_fwd_lifted3 _

/-- Decompressing coefficients and compressing returns the coefficients. -/
theorem C10_forward_backward (d : Nat) (hd : 1 ≤ d ∧ d ≤ 3) (p : Parent d) :
    forward d (backward d p) = p := by
  rw [forward_eq_parallel d hd, backward_eq_parallel d hd]
  rw [← (C10_lifted_eq_parallel d hd (fun _ => 0) p).2,
    ← (C10_lifted_eq_parallel d hd _ p).1]
  obtain rfl | rfl | rfl : d = 1 ∨ d = 2 ∨ d = 3 := by omega
  · exact fwd_bwd_lifted1 _
  · exact fwd_bwd_lifted2 _
  · exact fwd_bwd_lifted3 _

/-- The scale coefficient is the mean of the children. -/
theorem C10_scale_is_mean (d : Nat) (hd : 1 ≤ d ∧ d ≤ 3) (children : Coeffs d) :
    (forward d children).scale = ((List.finRange (2 ^ d)).map children).sum / 2 ^ d := by
  rw [forward_eq_parallel d hd]
  have h := fwd_par_scale children
  have : (2 : ℚ) ^ d ≠ 0 := pow_ne_zero _ (by norm_num)
  field_simp
  linarith

/-! ## C11 Single-child transforms -/

/-- Decompressing a single child is the corresponding entry of decompressing all. -/
theorem C11_backward_single (d : Nat) (hd : 1 ≤ d ∧ d ≤ 3) (p : Parent d) (c : Fin (2 ^ d)) :
    backwardSingleChild d p c = backward d p c := by
  rw [backward_eq_parallel d hd, bwd_single_eq_parallel]

/-- Compressing an update of one child equals compressing the vector that is zero elsewhere. -/
theorem C11_forward_single (d : Nat) (hd : 1 ≤ d ∧ d ≤ 3) (v : ℚ) (c : Fin (2 ^ d)) :
    forwardSingleChild d v c = forward d (fun j => if j = c then v else 0) := by
  rw [forward_eq_parallel d hd, fwd_par_single]

/-- So adding the single-child update to coefficients changes exactly that child's value. -/
theorem C11_single_update (d : Nat) (hd : 1 ≤ d ∧ d ≤ 3) (p : Parent d) (v : ℚ) (c c' : Fin (2 ^ d)) :
    backwardSingleChild d (p.add (forwardSingleChild d v c)) c'
      = backwardSingleChild d p c' + (if c' = c then v else 0) := by
  rw [bwd_single_add, C11_forward_single d hd, C11_backward_single d hd _ c', C11_backward_single d hd _ c',
    C10_backward_forward d hd]

/-- Coefficients for the 2D children `(1, 2, 3, 6)`: mean 3, horizontal 2, vertical 3, diagonal 2. -/
example : (forward 2 fun i => (![1, 2, 3, 6] : Fin 4 → ℚ) i).scale = 3 ∧
    (forward 2 fun i => (![1, 2, 3, 6] : Fin 4 → ℚ) i).details = ![2, 3, 2] := by
  constructor
  · rw [C10_scale_is_mean 2 (by decide)]
    simp [List.finRange_succ]; norm_num
  · funext i
    fin_cases i <;>
    simp [forward, forwardParallel, Parent.ofArray, List.finRange_succ, exp2, andNot, parity, popcount_1,
      popcount_2, popcount_3, popcount_0] <;> norm_num

end Wavemap
