import Mathlib.Analysis.SpecialFunctions.Trigonometric.ArctanDeriv
import Mathlib.Analysis.Calculus.MeanValue
import Mathlib.Analysis.Calculus.Deriv.MeanValue
import Mathlib.Data.Rat.Cast.Order
import Mathlib.Tactic.Ring
import Mathlib.Tactic.Linarith
import Mathlib.Tactic.NormNum
/-!
# Bounds of polynomials on intervals

Polynomials as lists of rational coefficients, constant term first. A bound on an interval follows from the coefficients of the polynomial shifted to the
interval's centre, which the kernel computes.
-/
namespace Wavemap
namespace PolyBound

/-- Value of a polynomial. -/
def eval : List ℚ → ℝ → ℝ
  | [], _ => 0
  | c :: cs, x => c + x * eval cs x

def add : List ℚ → List ℚ → List ℚ
  | [], q => q
  | p, [] => p
  | a :: p, b :: q => (a + b) :: add p q

def smul (k : ℚ) (p : List ℚ) : List ℚ := p.map (k * ·)

/-- Coefficients of `t ↦ p (a + t)`. -/
def shift (a : ℚ) : List ℚ → List ℚ
  | [] => []
  | c :: cs => add [c] (add (smul a (shift a cs)) (0 :: shift a cs))

def deriv : List ℚ → List ℚ
  | [] => []
  | _ :: cs => add cs (0 :: deriv cs)

/-- Bound of the absolute value for arguments up to `w`. -/
def absBound (w : ℚ) : List ℚ → ℚ
  | [] => 0
  | c :: cs => |c| + w * absBound w cs

theorem eval_add (p q : List ℚ) (x : ℝ) : eval (add p q) x = eval p x + eval q x := by
  induction p generalizing q with
  | nil => simp [add, eval]
  | cons a p ih =>
    cases q with
    | nil => simp [add, eval]
    | cons b q => simp only [add, eval, ih, Rat.cast_add]; ring

theorem eval_smul (k : ℚ) (p : List ℚ) (x : ℝ) : eval (smul k p) x = k * eval p x := by
  induction p with
  | nil => simp [smul, eval]
  | cons a p ih =>
    have : smul k (a :: p) = (k * a) :: smul k p := rfl
    rw [this]
    simp only [eval, ih, Rat.cast_mul]; ring

theorem eval_shift (a : ℚ) (p : List ℚ) (t : ℝ) : eval (shift a p) t = eval p (a + t) := by
  induction p with
  | nil => rfl
  | cons c p ih => simp only [shift, eval_add, eval_smul, eval, ih, Rat.cast_zero]; ring

theorem hasDerivAt_eval (p : List ℚ) (x : ℝ) : HasDerivAt (eval p) (eval (deriv p) x) x := by
  induction p with
  | nil => exact hasDerivAt_const x 0
  | cons c p ih =>
    have h := ((hasDerivAt_id x).mul ih).const_add (c : ℝ)
    have e : eval (deriv (c :: p)) x = 1 * eval p x + id x * eval (deriv p) x := by
      simp only [deriv, eval_add, eval, Rat.cast_zero, id]; ring
    rw [e]
    exact h

theorem absBound_nonneg {w : ℚ} (hw : 0 ≤ w) (p : List ℚ) : 0 ≤ absBound w p := by
  induction p with
  | nil => exact le_refl _
  | cons c p ih => exact add_nonneg (abs_nonneg _) (mul_nonneg hw ih)

theorem abs_eval_le (w : ℚ) (p : List ℚ) (t : ℝ) (ht : |t| ≤ w) : |eval p t| ≤ absBound w p := by
  have hw : (0 : ℝ) ≤ w := le_trans (abs_nonneg _) ht
  induction p with
  | nil => simp [eval, absBound]
  | cons c p ih =>
    have hb : (0 : ℝ) ≤ absBound w p := by
      have : (0 : ℚ) ≤ w := by exact_mod_cast hw
      exact_mod_cast absBound_nonneg this p
    calc |eval (c :: p) t| ≤ |(c : ℝ)| + |t * eval p t| := abs_add_le _ _
      _ = |(c : ℝ)| + |t| * |eval p t| := by rw [abs_mul]
      _ ≤ |(c : ℝ)| + w * absBound w p := by
        have := mul_le_mul ht ih (abs_nonneg _) hw
        linarith
      _ = ((|c| + w * absBound w p : ℚ) : ℝ) := by push_cast; rfl

/-- The bound on each interval between successive break points. -/
def boundedOn (p : List ℚ) (b : ℚ) : List ℚ → Bool
  | lo :: hi :: rest => decide (lo ≤ hi) && decide (absBound ((hi - lo) / 2) (shift ((lo + hi) / 2) p) ≤ b) && boundedOn p b (hi :: rest)
  | _ => true

theorem boundedOn_sound (p : List ℚ) (b : ℚ) : ∀ (l : List ℚ) (lo : ℚ), boundedOn p b (lo :: l) = true → ∀ x : ℝ, lo ≤ x → x ≤ ((lo :: l).getLast (by simp) : ℚ) →
    l ≠ [] → |eval p x| ≤ b := by
  intro l
  induction l with
  | nil => intro lo _ x _ _ h; exact absurd rfl h
  | cons hi rest ih =>
    intro lo hb x h1 h2 _
    simp only [boundedOn, Bool.and_eq_true, decide_eq_true_eq] at hb
    obtain ⟨⟨hb1, hb2⟩, hb3⟩ := hb
    rcases le_total x (hi : ℝ) with hx | hx
    · have e : x = (((lo + hi) / 2 : ℚ) : ℝ) + (x - ((lo + hi) / 2 : ℚ)) := by ring
      have hle : |eval p x| ≤ absBound ((hi - lo) / 2) (shift ((lo + hi) / 2) p) := by
        rw [e, ← eval_shift]
        apply abs_eval_le
        rw [abs_le]
        push_cast
        constructor <;> linarith
      refine le_trans hle ?_
      exact_mod_cast hb2
    · cases rest with
      | nil =>
        simp only [List.getLast_cons_cons, List.getLast_singleton] at h2
        have hxe : x = hi := le_antisymm h2 hx
        have e : x = (((lo + hi) / 2 : ℚ) : ℝ) + (x - ((lo + hi) / 2 : ℚ)) := by ring
        have hle : |eval p x| ≤ absBound ((hi - lo) / 2) (shift ((lo + hi) / 2) p) := by
          rw [e, ← eval_shift]
          apply abs_eval_le
          rw [abs_le]
          push_cast
          constructor <;> linarith
        refine le_trans hle ?_
        exact_mod_cast hb2
      | cons h3 r =>
        refine ih hi hb3 x hx ?_ (by simp)
        simpa using h2

/-! ## The arc tangent -/

/-- 768398401 times the coefficients of the polynomial `A` with `A(q) (1 + q) = 1 - T₁₂(2q - 1) / T₁₂(3)`, in `q = x²`, for the Chebyshev polynomial `T₁₂`. -/
def arctanDerivative : List ℚ :=
  [768398400, 0, -768398112, 0, 768384384, 0, -768128128, 0, 765657088, 0, -751599616, 0, 700907520, 0, -580583424, 0, 390070272, 0, -190840832, 0,
    58720256, 0, -8388608, 0].map (· / 768398401)

/-- Its integral. -/
def arctanPoly : List ℚ :=
  [0, 768398400, 0, -768398112 / 3, 0, 768384384 / 5, 0, -768128128 / 7, 0, 765657088 / 9, 0, -751599616 / 11, 0, 700907520 / 13, 0, -580583424 / 15, 0,
    390070272 / 17, 0, -190840832 / 19, 0, 58720256 / 21, 0, -8388608 / 23].map (· / 768398401)

theorem deriv_arctanPoly : deriv arctanPoly = arctanDerivative := by decide +kernel

theorem t2_bound {u : ℝ} (h : |u| ≤ 1) : |2 * u ^ 2 - 1| ≤ 1 := by
  rw [abs_le] at h ⊢
  constructor <;> nlinarith [h.1, h.2]

theorem t3_bound {u : ℝ} (h : |u| ≤ 1) : |4 * u ^ 3 - 3 * u| ≤ 1 := by
  rw [abs_le] at h ⊢
  constructor
  · nlinarith [mul_nonneg (by linarith [h.1] : (0:ℝ) ≤ u + 1) (sq_nonneg (2 * u - 1))]
  · nlinarith [mul_nonneg (by linarith [h.2] : (0:ℝ) ≤ 1 - u) (sq_nonneg (2 * u + 1))]

theorem arctanDerivative_close {x : ℝ} (h0 : 0 ≤ x) (h1 : x ≤ 1) :
    |eval arctanDerivative x - 1 / (1 + x ^ 2)| ≤ 1 / 768398401 := by
  have hu : |2 * x ^ 2 - 1| ≤ 1 := by rw [abs_le]; constructor <;> nlinarith
  have hT := t3_bound (t2_bound (t2_bound hu))
  have e : eval arctanDerivative x * (1 + x ^ 2) - 1 =
      -(4 * (2 * (2 * (2 * x ^ 2 - 1) ^ 2 - 1) ^ 2 - 1) ^ 3 - 3 * (2 * (2 * (2 * x ^ 2 - 1) ^ 2 - 1) ^ 2 - 1)) / 768398401 := by
    simp only [arctanDerivative, List.map, eval]
    push_cast
    ring
  have hpos : (1 : ℝ) ≤ 1 + x ^ 2 := by nlinarith
  have e2 : eval arctanDerivative x - 1 / (1 + x ^ 2) = (eval arctanDerivative x * (1 + x ^ 2) - 1) / (1 + x ^ 2) := by
    field_simp
  rw [e2, e, abs_div, abs_div, abs_neg, abs_of_pos (by linarith : (0:ℝ) < 1 + x ^ 2), abs_of_pos (by norm_num : (0:ℝ) < 768398401)]
  rw [div_div]
  apply div_le_div₀ (by norm_num) hT (by norm_num)
  nlinarith

/-- The integral is close to the arc tangent. -/
theorem arctanPoly_close {x : ℝ} (h0 : 0 ≤ x) (h1 : x ≤ 1) : |eval arctanPoly x - Real.arctan x| ≤ 1 / 768398401 := by
  have hd : ∀ y, HasDerivAt (fun y => eval arctanPoly y - Real.arctan y) (eval arctanDerivative y - 1 / (1 + y ^ 2)) y := by
    intro y
    have := (hasDerivAt_eval arctanPoly y).sub (Real.hasDerivAt_arctan y)
    rw [deriv_arctanPoly] at this
    exact this
  have h := (convex_Icc (0:ℝ) 1).norm_image_sub_le_of_norm_hasDerivWithin_le (f := fun y => eval arctanPoly y - Real.arctan y)
    (f' := fun y => eval arctanDerivative y - 1 / (1 + y ^ 2)) (C := 1 / 768398401) (x := 0) (y := x)
    (fun y _ => (hd y).hasDerivWithinAt) (fun y hy => by rw [Real.norm_eq_abs]; exact arctanDerivative_close hy.1 hy.2)
    ⟨le_refl _, by norm_num⟩ ⟨h0, h1⟩
  have hz : eval arctanPoly 0 - Real.arctan 0 = 0 := by simp [arctanPoly, eval]
  simp only [hz, sub_zero, Real.norm_eq_abs] at h
  refine le_trans h ?_
  rw [abs_of_nonneg h0]
  nlinarith

end PolyBound
end Wavemap
