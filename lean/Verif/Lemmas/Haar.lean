import Verif.Model.Haar
import Mathlib.Tactic.Ring
import Mathlib.Tactic.FieldSimp
import Mathlib.Data.List.FinRange
import Mathlib.Tactic.FinCases
import Mathlib.Data.Fintype.Basic
/-! The Haar transforms for `dim = 1, 2, 3`, evaluated to closed forms in the input values. -/
namespace Wavemap.Haar

theorem popcount_0 : popcount 0 = 0 := by decide
theorem popcount_1 : popcount 1 = 1 := by decide
theorem popcount_2 : popcount 2 = 1 := by decide
theorem popcount_3 : popcount 3 = 2 := by decide
theorem popcount_4 : popcount 4 = 1 := by decide
theorem popcount_5 : popcount 5 = 2 := by decide
theorem popcount_6 : popcount 6 = 2 := by decide
theorem popcount_7 : popcount 7 = 3 := by decide

theorem Parent.get_ext {d : Nat} {p q : Parent d} (h : ∀ i, p.get i = q.get i) : p = q := by
  ext i
  · have := h ⟨0, Nat.two_pow_pos d⟩
    simpa [Parent.get] using this
  · have := h ⟨i.val + 1, by omega⟩
    simpa [Parent.get] using this

theorem Parent.get_ofArray {d : Nat} (a : Coeffs d) (i : Fin (2 ^ d)) : (Parent.ofArray a).get i = a i := by
  unfold Parent.get Parent.ofArray
  split
  · rename_i h
    show a _ = a i
    congr 1; exact Fin.ext h.symm
  · rename_i h
    show a _ = a i
    congr 1; apply Fin.ext; simp; omega

theorem Parent.get_one {p : Parent 3} :
    p.get ⟨0, by decide⟩ = p.scale ∧ ∀ i : Fin 7, p.get ⟨i.val + 1, by omega⟩ = p.details i := by
  constructor
  · simp [Parent.get]
  · intro i; simp [Parent.get]

macro "haar_eval" : tactic => `(tactic| (
  simp [List.range_succ, exp2, forwardBeam, backwardBeam, squeezeIn, set, getLt, List.finRange_succ,
    andNot, parity, popcount_0, popcount_1, popcount_2, popcount_3, popcount_4, popcount_5, popcount_6,
    popcount_7, Parent.get]))

/-- Parallel and lifted forward transforms agree. -/
theorem fwd_par_eq_lifted1 (x : Coeffs 1) : forwardParallel 1 x = forwardLifted 1 x := by
  apply Parent.get_ext
  intro i
  unfold forwardParallel forwardLifted
  simp only [Parent.get_ofArray]
  fin_cases i <;> haar_eval <;> ring

theorem fwd_par_eq_lifted2 (x : Coeffs 2) : forwardParallel 2 x = forwardLifted 2 x := by
  apply Parent.get_ext
  intro i
  unfold forwardParallel forwardLifted
  simp only [Parent.get_ofArray]
  fin_cases i <;> haar_eval <;> ring

theorem fwd_par_eq_lifted3 (x : Coeffs 3) : forwardParallel 3 x = forwardLifted 3 x := by
  apply Parent.get_ext
  intro i
  unfold forwardParallel forwardLifted
  simp only [Parent.get_ofArray]
  fin_cases i <;> haar_eval <;> ring

/-- Parallel and lifted inverse transforms agree. -/
theorem bwd_par_eq_lifted1 (p : Parent 1) : backwardParallel 1 p = backwardLifted 1 p := by
  funext i
  unfold backwardParallel backwardLifted
  fin_cases i <;> haar_eval <;> ring

theorem bwd_par_eq_lifted2 (p : Parent 2) : backwardParallel 2 p = backwardLifted 2 p := by
  funext i
  unfold backwardParallel backwardLifted
  fin_cases i <;> haar_eval <;> ring

theorem bwd_par_eq_lifted3 (p : Parent 3) : backwardParallel 3 p = backwardLifted 3 p := by
  funext i
  unfold backwardParallel backwardLifted
  fin_cases i <;> haar_eval <;> ring

/-- Reconstruction. -/
theorem bwd_fwd_lifted1 (x : Coeffs 1) : backwardLifted 1 (forwardLifted 1 x) = x := by
  funext i
  unfold backwardLifted forwardLifted
  have : (Parent.ofArray ((List.range 1).foldl
      (fun a dimIdx => (List.range (exp2 (1 - 1))).foldl (forwardBeam dimIdx) a) x)).get = _ :=
    funext fun i => Parent.get_ofArray _ i
  rw [this]
  fin_cases i <;> haar_eval

theorem bwd_fwd_lifted2 (x : Coeffs 2) : backwardLifted 2 (forwardLifted 2 x) = x := by
  funext i
  unfold backwardLifted forwardLifted
  have : (Parent.ofArray ((List.range 2).foldl
      (fun a dimIdx => (List.range (exp2 (2 - 1))).foldl (forwardBeam dimIdx) a) x)).get = _ :=
    funext fun i => Parent.get_ofArray _ i
  rw [this]
  fin_cases i <;> haar_eval <;> ring

theorem bwd_fwd_lifted3 (x : Coeffs 3) : backwardLifted 3 (forwardLifted 3 x) = x := by
  funext i
  unfold backwardLifted forwardLifted
  have : (Parent.ofArray ((List.range 3).foldl
      (fun a dimIdx => (List.range (exp2 (3 - 1))).foldl (forwardBeam dimIdx) a) x)).get = _ :=
    funext fun i => Parent.get_ofArray _ i
  rw [this]
  fin_cases i <;> haar_eval <;> ring

theorem fwd_bwd_lifted1 (p : Parent 1) : forwardLifted 1 (backwardLifted 1 p) = p := by
  apply Parent.get_ext
  intro i
  unfold backwardLifted forwardLifted
  rw [Parent.get_ofArray]
  fin_cases i <;> haar_eval

theorem fwd_bwd_lifted2 (p : Parent 2) : forwardLifted 2 (backwardLifted 2 p) = p := by
  apply Parent.get_ext
  intro i
  unfold backwardLifted forwardLifted
  rw [Parent.get_ofArray]
  fin_cases i <;> haar_eval <;> ring

theorem fwd_bwd_lifted3 (p : Parent 3) : forwardLifted 3 (backwardLifted 3 p) = p := by
  apply Parent.get_ext
  intro i
  unfold backwardLifted forwardLifted
  rw [Parent.get_ofArray]
  fin_cases i <;> haar_eval <;> ring

/-! ### Sums and linearity, for every dimension -/

theorem foldl_add_eq {α : Type _} (f : α → ℚ) (l : List α) (b : ℚ) :
    l.foldl (fun acc x => acc + f x) b = b + (l.map f).sum := by
  induction l generalizing b with
  | nil => simp
  | cons a t ih => rw [List.foldl_cons, ih, List.map_cons, List.sum_cons]; ring

theorem sum_map_add {α : Type _} (f g : α → ℚ) (l : List α) :
    (l.map fun x => f x + g x).sum = (l.map f).sum + (l.map g).sum := by
  induction l with
  | nil => simp
  | cons a t ih => simp only [List.map_cons, List.sum_cons, ih]; ring

theorem sum_map_mul {α : Type _} (k : ℚ) (f : α → ℚ) (l : List α) :
    (l.map fun x => k * f x).sum = k * (l.map f).sum := by
  induction l with
  | nil => simp
  | cons a t ih => simp only [List.map_cons, List.sum_cons, ih]; ring

theorem sum_map_zero {α : Type _} (f : α → ℚ) (l : List α) (h : ∀ x ∈ l, f x = 0) :
    (l.map f).sum = 0 := by
  induction l with
  | nil => simp
  | cons a t ih =>
    simp only [List.map_cons, List.sum_cons, h a List.mem_cons_self]
    rw [ih fun x hx => h x (List.mem_cons_of_mem _ hx)]; ring

theorem sum_finRange_single {n : Nat} (f : Fin n → ℚ) (i : Fin n) (h : ∀ j, j ≠ i → f j = 0) :
    ((List.finRange n).map f).sum = f i := by
  have key : ∀ l : List (Fin n), l.Nodup → (l.map f).sum = if i ∈ l then f i else 0 := by
    intro l
    induction l with
    | nil => simp
    | cons a t ih =>
      intro hnd
      rw [List.nodup_cons] at hnd
      simp only [List.map_cons, List.sum_cons, ih hnd.2]
      by_cases ha : a = i
      · subst ha; simp [hnd.1]
      · rw [h a ha]
        have : (i ∈ a :: t) ↔ i ∈ t := by
          constructor
          · intro hm; rcases List.mem_cons.mp hm with rfl | hm
            · exact absurd rfl ha
            · exact hm
          · exact List.mem_cons_of_mem _
        simp [this]
  rw [key _ (List.nodup_finRange n)]
  simp

/-- Sign of the contribution of coefficient `p` to child `c`. -/
def sgn (p c : Nat) : ℚ := if parity (andNot p c) then -1 else 1

theorem ite_neg_eq (p c : Nat) (v : ℚ) : (if parity (andNot p c) then -v else v) = sgn p c * v := by
  unfold sgn; split <;> ring

theorem bwd_single_eq {d : Nat} (p : Parent d) (c : Fin (2 ^ d)) :
    backwardSingleChild d p c = p.scale + ((List.finRange (2 ^ d - 1)).map fun i =>
      sgn (i.val + 1) c.val * (p.details i / (exp2 (popcount (i.val + 1)) : Nat))).sum := by
  unfold backwardSingleChild
  simp only [ite_neg_eq]
  rw [foldl_add_eq]

theorem bwd_single_eq_parallel {d : Nat} (p : Parent d) (c : Fin (2 ^ d)) :
    backwardSingleChild d p c = backwardParallel d p c := by
  unfold backwardSingleChild backwardParallel
  rw [zero_add]

theorem bwd_single_add {d : Nat} (p q : Parent d) (c : Fin (2 ^ d)) :
    backwardSingleChild d (p.add q) c = backwardSingleChild d p c + backwardSingleChild d q c := by
  simp only [bwd_single_eq, Parent.add, add_div, mul_add]
  rw [sum_map_add]; ring

theorem bwd_single_smul {d : Nat} (a : ℚ) (p : Parent d) (c : Fin (2 ^ d)) :
    backwardSingleChild d (p.smul a) c = a * backwardSingleChild d p c := by
  simp only [bwd_single_eq, Parent.smul, mul_div_assoc, mul_left_comm _ a]
  rw [sum_map_mul]; ring

theorem bwd_single_const {d : Nat} (s : ℚ) (c : Fin (2 ^ d)) :
    backwardSingleChild d ⟨s, fun _ => 0⟩ c = s := by
  rw [bwd_single_eq, sum_map_zero]
  · simp
  · intro x _; simp

theorem fwd_par_single {d : Nat} (v : ℚ) (c : Fin (2 ^ d)) :
    forwardParallel d (fun j => if j = c then v else 0) = forwardSingleChild d v c := by
  apply Parent.get_ext
  intro p
  unfold forwardParallel forwardSingleChild
  rw [Parent.get_ofArray, Parent.get_ofArray]
  simp only [ite_neg_eq]
  rw [foldl_add_eq, sum_finRange_single _ c]
  · simp
  · intro j hj; simp [hj]

theorem fwd_par_add {d : Nat} (x y : Coeffs d) :
    forwardParallel d (fun i => x i + y i) = (forwardParallel d x).add (forwardParallel d y) := by
  have e : ∀ z : Coeffs d, ∀ i, (forwardParallel d z).get i
      = ((List.finRange (2 ^ d)).map fun c => sgn i.val c.val * z c).sum / (exp2 (d - popcount i.val) : Nat) := by
    intro z i
    unfold forwardParallel
    rw [Parent.get_ofArray]
    simp only [ite_neg_eq]
    rw [foldl_add_eq, zero_add]
  apply Parent.get_ext
  intro i
  have hadd : ∀ a b : Parent d, (a.add b).get i = a.get i + b.get i := by
    intro a b; unfold Parent.get Parent.add; split <;> rfl
  rw [hadd, e, e, e]
  simp only [mul_add]
  rw [sum_map_add, add_div]

theorem fwd_par_scale {d : Nat} (x : Coeffs d) :
    (forwardParallel d x).scale * 2 ^ d = ((List.finRange (2 ^ d)).map x).sum := by
  have hpc : popcount 0 = 0 := popcount_0
  have hz : ∀ c, parity (andNot 0 c) = false := by
    intro c; simp [andNot, parity, hpc]
  unfold forwardParallel Parent.ofArray
  simp only [hpc, hz, if_false, Bool.false_eq_true, Nat.sub_zero]
  rw [foldl_add_eq, zero_add]
  have : ((exp2 d : Nat) : ℚ) = 2 ^ d := by simp [exp2, Nat.shiftLeft_eq]
  rw [this]
  field_simp

end Wavemap.Haar
