import Verif.Lemmas.SingleRay
import Verif.Props.Ray
import Verif.Props.SinglePrecision
import Mathlib.Data.Fin.VecNotation
import Mathlib.Data.Fintype.Basic
import Mathlib.Tactic.FinCases
/-!
# C88: rays in single precision
-/
namespace Wavemap
variable {d : Nat}

/-! ## Specification -/

/-- How far, in cells, rounding may move a ray that starts `s` cells from the origin and moves `n` cells along an axis. -/
def rayError (s : Int) (n : Nat) : ℚ := (|(s : ℚ)| + (n + 4) ^ 2) / 2 ^ 22

/-! ## Lemmas -/

namespace SingleRay

/-- The time of a visited cell, restricted to the ray, lies between its two boundaries, up to the error. -/
theorem touch_axis {init step X D ε τ : ℚ} {n c : Nat} (hX : 0 ≤ X) (herr : ∀ k ≤ n, |times init step k * X - (D + k)| ≤ ε) (hD0 : -ε ≤ D) (hD1 : D ≤ 1 + ε)
    (hend : 0 < n → D + n - 1 ≤ X + ε) (hc : c ≤ n) (hprev : 0 < c → times init step (c - 1) ≤ τ) (hnext : τ ≤ times init step c) :
    D + c - 1 - ε ≤ max 0 (min τ 1) * X ∧ max 0 (min τ 1) * X ≤ D + c + ε := by
  have hc0 : (0 : ℚ) ≤ c := Nat.cast_nonneg c
  have hup := (abs_le.1 (herr c hc)).2
  have hnX := mul_le_mul_of_nonneg_right hnext hX
  constructor
  · rcases Nat.eq_zero_or_pos c with h0 | h0
    · subst h0
      have : 0 ≤ max 0 (min τ 1) * X := mul_nonneg (le_max_left _ _) hX
      push_cast; linarith
    · have h1 := (abs_le.1 (herr (c - 1) (by omega))).1
      have h2 := mul_le_mul_of_nonneg_right (hprev h0) hX
      rw [Nat.cast_sub h0] at h1
      push_cast at h1
      rcases le_total τ 1 with h | h
      · rw [min_eq_left h]
        have := mul_le_mul_of_nonneg_right (le_max_right 0 τ) hX
        linarith
      · rw [min_eq_right h, max_eq_right (by norm_num), one_mul]
        have h3 := hend (by omega)
        have : (c : ℚ) ≤ n := by exact_mod_cast hc
        linarith
  · rcases le_total τ 0 with h | h
    · rw [max_eq_left ((min_le_left _ _).trans h), zero_mul]; linarith
    · rw [max_eq_right (le_min h (by norm_num))]
      have := mul_le_mul_of_nonneg_right (min_le_left τ 1) hX
      linarith

/-- The rounded sign of the difference is that of the difference. -/
theorem fl_sign (x : ℚ) : (fl x = 0 ↔ x = 0) ∧ ratSign (fl x) = ratSign x := by
  obtain ⟨δ, h, e⟩ := fl_factor x
  rw [abs_le] at h
  have hp : 0 < 1 + δ := by norm_num at h; linarith
  have h1 : 0 < fl x ↔ 0 < x := by rw [e, mul_pos_iff_of_pos_right hp]
  have h2 : fl x < 0 ↔ x < 0 := by rw [e]; exact ⟨fun h => by nlinarith, fun h => mul_neg_of_neg_of_pos h hp⟩
  refine ⟨by rw [e, mul_eq_zero]; constructor <;> intro h <;> [exact h.resolve_right hp.ne'; exact Or.inl h], ?_⟩
  unfold ratSign
  simp only [h1, h2]

/-- The quotient of two rounding factors. -/
theorem ratio_err {δ4 δ5 : ℚ} (h4 : |δ4| ≤ 1 / 2 ^ 24) (h5 : |δ5| ≤ 1 / 2 ^ 24) : |(1 + δ4) / (1 + δ5) - 1| ≤ 21 / 10 / 2 ^ 24 := by
  have hp5 : 0 < 1 + δ5 := by rw [abs_le] at h5; norm_num at h5; linarith
  have : (1 + δ4) / (1 + δ5) - 1 = (δ4 - δ5) / (1 + δ5) := by
    rw [div_sub_one hp5.ne']; ring
  rw [this, abs_div, abs_of_pos hp5, div_le_iff₀ hp5]
  rw [abs_le] at h4 h5 ⊢
  norm_num at h4 h5 ⊢
  constructor <;> nlinarith

/-- The step times the number of cells per unit of time. -/
theorem step_key {σ w Δ δ4 δ5 : ℚ} (hσ : σ * σ = 1) (hw : w ≠ 0) (hΔ : Δ ≠ 0) (h5 : 1 + δ5 ≠ 0) :
    σ * w / (Δ * (1 + δ5)) * (1 + δ4) * (σ * Δ / w) - 1 = (1 + δ4) / (1 + δ5) - 1 := by
  have : σ * w / (Δ * (1 + δ5)) * (1 + δ4) * (σ * Δ / w) = (σ * σ) * ((1 + δ4) / (1 + δ5)) := by
    generalize 1 + δ4 = x
    generalize 1 + δ5 = y at h5
    field_simp
  rw [this, hσ, one_mul]

/-- The first time and the step, in cells, along a moving axis. `a` is the position in the first cell. -/
theorem point_axis {p Δ w : ℚ} {s σ : Int} (hσ : σ = 1 ∨ σ = -1) (hw : 0 < w) (hf : IsFloat w) (hΔ : 0 < σ * Δ) (hs : |(s : ℚ)| ≤ 2 ^ 22) (ha : |p / w - s| ≤ 2)
    (ha' : |1 - (p / w - s)| ≤ 2) :
    |fl (fl (fl (fl (max σ 0 : Int) * w) - fl (p - fl (fl s * w))) / fl Δ) * (σ * Δ / w) - σ * ((max σ 0 : Int) - (p / w - s))| ≤ (|(s : ℚ)| + 11) / 2 ^ 24 ∧
    |fl (fl (fl σ * w) / fl Δ) * (σ * Δ / w) - 1| ≤ 3 / 2 ^ 24 ∧ 0 ≤ fl (fl (fl σ * w) / fl Δ) := by
  have hs' : fl (s : ℚ) = s := by
    refine fl_int ?_
    have : |s| ≤ 2 ^ 22 := by exact_mod_cast hs
    omega
  have hσ' : fl (σ : ℚ) = σ := fl_int (by rcases hσ with rfl | rfl <;> norm_num)
  have hρ' : fl ((max σ 0 : Int) : ℚ) = (max σ 0 : Int) := fl_int (by rcases hσ with rfl | rfl <;> norm_num)
  have hσw : fl ((σ : ℚ) * w) = σ * w := by
    rcases hσ with rfl | rfl
    · push_cast; rw [one_mul, fl_of_isFloat hf]
    · push_cast; rw [neg_one_mul, fl_of_isFloat hf.neg]
  have hρw : fl (((max σ 0 : Int) : ℚ) * w) = (max σ 0 : Int) * w := by
    rcases hσ with rfl | rfl
    · rw [show max (1 : Int) 0 = 1 by decide]; push_cast; rw [one_mul, fl_of_isFloat hf]
    · rw [show max (-1 : Int) 0 = 0 by decide]; push_cast; rw [zero_mul, fl_zero]
  have hρ : ((max σ 0 : Int) : ℚ) = 0 ∨ ((max σ 0 : Int) : ℚ) = 1 := by
    rcases hσ with rfl | rfl
    · right; norm_num
    · left; norm_num
  rw [hs', hσ', hρ', hσw, hρw]
  generalize ((max σ 0 : Int) : ℚ) = ρ at hρ
  have hσ2 : (σ : ℚ) = 1 ∨ (σ : ℚ) = -1 := by rcases hσ with rfl | rfl <;> norm_num
  generalize (σ : ℚ) = σ' at hΔ hσ2
  generalize (s : ℚ) = s' at hs ha ha'
  have hΔ0 : Δ ≠ 0 := by rintro rfl; simp at hΔ
  obtain ⟨δ1, h1, e1⟩ := fl_factor (s' * w)
  obtain ⟨δ2, h2, e2⟩ := fl_factor (p - fl (s' * w))
  obtain ⟨δ3, h3, e3⟩ := fl_factor (ρ * w - fl (p - fl (s' * w)))
  obtain ⟨δ5, h5, e5⟩ := fl_factor Δ
  have hp5 : 0 < 1 + δ5 := by rw [abs_le] at h5; norm_num at h5; linarith
  have hsq : σ' * σ' = 1 := by rcases hσ2 with e | e <;> rw [e] <;> norm_num
  refine ⟨?_, ?_, ?_⟩
  · obtain ⟨δ4, h4, e4⟩ := fl_factor (fl (ρ * w - fl (p - fl (s' * w))) / fl Δ)
    rw [e4, e3, e2, e1, e5]
    have key : (ρ * w - (p - s' * w * (1 + δ1)) * (1 + δ2)) * (1 + δ3) / (Δ * (1 + δ5)) * (1 + δ4) * (σ' * Δ / w)
        = σ' * ((ρ - (p / w - s' - s' * δ1) * (1 + δ2)) * (1 + δ3)) * ((1 + δ4) / (1 + δ5)) := by
      field_simp
      ring
    rw [key]
    generalize p / w - s' = x at ha ha'
    have r1 := ratio_err h4 h5
    generalize (1 + δ4) / (1 + δ5) = r at r1
    -- the rounded position in the first cell
    have q1 : |s' * δ1| ≤ |s'| / 2 ^ 24 := by
      rw [abs_mul, div_eq_mul_one_div]
      exact mul_le_mul_of_nonneg_left h1 (abs_nonneg _)
    have hs4 : |s'| / 2 ^ 24 ≤ 1 / 4 := by rw [div_le_iff₀ (by norm_num)]; linarith
    have q2 : |(x - s' * δ1) * (1 + δ2) - x| ≤ |s'| / 2 ^ 24 + 9 / 4 / 2 ^ 24 := by
      have e : (x - s' * δ1) * (1 + δ2) - x = -(s' * δ1) + (x - s' * δ1) * δ2 := by ring
      rw [e]
      refine (abs_add_le _ _).trans ?_
      rw [abs_neg]
      refine add_le_add q1 ?_
      rw [abs_mul]
      have : |x - s' * δ1| ≤ 9 / 4 := by
        have q1' := q1.trans hs4
        rw [abs_le] at ha q1' ⊢
        constructor <;> linarith
      calc |x - s' * δ1| * |δ2| ≤ 9 / 4 * (1 / 2 ^ 24) := mul_le_mul this h2 (abs_nonneg _) (by norm_num)
        _ = _ := by norm_num
    generalize (x - s' * δ1) * (1 + δ2) = y at q2
    have hx : |ρ - x| ≤ 2 := by
      rcases hρ with rfl | rfl
      · rw [zero_sub, abs_neg]; exact ha
      · exact ha'
    have q2' : |y - x| ≤ 1 / 2 := q2.trans (by norm_num at hs4 ⊢; linarith)
    have hy : |ρ - y| ≤ 5 / 2 := by
      rw [abs_le] at hx q2' ⊢
      constructor <;> linarith
    have q3 : |(ρ - y) * (1 + δ3) - (ρ - x)| ≤ |s'| / 2 ^ 24 + 9 / 4 / 2 ^ 24 + 5 / 2 / 2 ^ 24 := by
      have e : (ρ - y) * (1 + δ3) - (ρ - x) = -(y - x) + (ρ - y) * δ3 := by ring
      rw [e]
      refine (abs_add_le _ _).trans ?_
      rw [abs_neg]
      refine add_le_add q2 ?_
      rw [abs_mul]
      calc |ρ - y| * |δ3| ≤ 5 / 2 * (1 / 2 ^ 24) := mul_le_mul hy h3 (abs_nonneg _) (by norm_num)
        _ = _ := by norm_num
    have hz : |(ρ - y) * (1 + δ3)| ≤ 5 / 2 + 1 / 100 := by
      rw [abs_mul]
      have : |1 + δ3| ≤ 1 + 1 / 2 ^ 24 := (abs_add_le _ _).trans (by rw [abs_one]; linarith)
      calc |ρ - y| * |1 + δ3| ≤ 5 / 2 * (1 + 1 / 2 ^ 24) := mul_le_mul hy this (abs_nonneg _) (by norm_num)
        _ ≤ _ := by norm_num
    generalize (ρ - y) * (1 + δ3) = z at q3 hz
    have e : σ' * z * r - σ' * (ρ - x) = σ' * ((z - (ρ - x)) + z * (r - 1)) := by ring
    rw [e, abs_mul]
    have hσ1 : |σ'| = 1 := by rcases hσ2 with e | e <;> rw [e] <;> norm_num
    rw [hσ1, one_mul]
    refine (abs_add_le _ _).trans ?_
    rw [abs_mul]
    have q4 : |z| * |r - 1| ≤ (5 / 2 + 1 / 100) * (21 / 10 / 2 ^ 24) := mul_le_mul hz r1 (abs_nonneg _) (by norm_num)
    have e2 : (|s'| + 11) / 2 ^ 24 = |s'| / 2 ^ 24 + 11 / 2 ^ 24 := by ring
    rw [e2]
    norm_num at q3 q4 ⊢
    linarith
  · obtain ⟨δ4, h4, e4⟩ := fl_factor (σ' * w / fl Δ)
    rw [e4, e5]
    rw [step_key hsq hw.ne' hΔ0 hp5.ne']
    exact (ratio_err h4 h5).trans (by norm_num)
  · have : 0 ≤ σ' * w / fl Δ := by
      rw [e5]
      have : σ' * w / (Δ * (1 + δ5)) = (σ' * σ') * w / (σ' * Δ * (1 + δ5)) := by
        have : σ' ≠ 0 := by rintro rfl; simp at hΔ
        field_simp
      rw [this, hsq, one_mul]
      positivity
    have h := fl_mono this
    rwa [fl_zero] at h

/-- Larger coordinates are assigned to larger cells. -/
theorem cell_mono {x y v : ℚ} (h : x ≤ y) (hv : 0 ≤ v) : cppRound (fl (fl (x * v) - 1 / 2)) ≤ cppRound (fl (fl (y * v) - 1 / 2)) := by
  have h1 : fl (fl (x * v) - 1 / 2) ≤ fl (fl (y * v) - 1 / 2) := fl_mono (by linarith [fl_mono (mul_le_mul_of_nonneg_right h hv)])
  generalize fl (fl (x * v) - 1 / 2) = a at h1
  generalize fl (fl (y * v) - 1 / 2) = b at h1
  unfold cppRound
  split <;> split
  · exact Int.floor_le_floor (by linarith)
  · linarith
  · rename_i h2 h3
    have : ⌈a - 1 / 2⌉ ≤ 0 := Int.ceil_le.2 (by push_cast; linarith)
    have : 0 ≤ ⌊b + 1 / 2⌋ := Int.floor_nonneg.2 (by linarith)
    omega
  · exact Int.ceil_le_ceil (by linarith)

end SingleRay

/-! ## C88 -/

open SingleRay

/-- C88 (rays between cells): for up to 2800 cells along each axis, the rounded iteration starts at the first and ends at the second cell, moves by one step towards the end each time, visits
no cell twice, and each visited cell is touched by the line between the centres, up to the error. -/
theorem C88_index_ray (a b : Index d) (hn : ∀ i, (b i - a i).natAbs ≤ 2800) (cells : List (Index d)) (h : Single.RayCells (Single.rayOfIndices a b) cells) :
    cells.head? = some a ∧ cells.getLast? = some b ∧ cells.IsChain (StepTowards b) ∧ cells.Nodup ∧
    ∀ cell ∈ cells, ∃ t : ℚ, 0 ≤ t ∧ t ≤ 1 ∧ ∀ i, |(a i : ℚ) + t * (b i - a i) - cell i| ≤ 1 / 2 + rayError 0 (b i - a i).natAbs := by
  obtain ⟨hl, hv⟩ := h
  -- the times along an axis
  have axis : ∀ i, 0 < (b i - a i).natAbs → 0 ≤ (Single.rayOfIndices a b).tStep i ∧ IsFloat ((Single.rayOfIndices a b).tInit i) ∧
      ∀ k ≤ (b i - a i).natAbs, |times ((Single.rayOfIndices a b).tInit i) ((Single.rayOfIndices a b).tStep i) k * (b i - a i).natAbs - (1 / 2 + k)|
        ≤ (1 + k ^ 2 + 8 * k) / 2 ^ 24 := by
    intro i hi
    have hni := hn i
    have hz : ¬ (b i - a i = 0) := by omega
    simp only [Single.rayOfIndices, if_neg hz]
    generalize b i - a i = D at hi hni hz
    obtain ⟨n, σ, hn0, hσ, hDn, rfl⟩ : ∃ (n : Nat) (σ : Int), 0 < n ∧ (σ = 1 ∨ σ = -1) ∧ D.natAbs = n ∧ D = σ * n :=
      ⟨D.natAbs, D.sign, hi, by rcases lt_trichotomy D 0 with h | h | h <;> [right; omega; left] <;> [exact Int.sign_eq_neg_one_of_neg h; exact Int.sign_eq_one_of_pos h],
        rfl, by rw [Int.sign_mul_natAbs]⟩
    have hnq : (0 : ℚ) < n := by exact_mod_cast hn0
    have hsign : (σ * (n : Int)).sign = σ := by
      rcases hσ with rfl | rfl
      · rw [one_mul]; exact Int.sign_eq_one_of_pos (by omega)
      · exact Int.sign_eq_neg_one_of_neg (by omega)
    have hflD : fl (((σ * (n : Int) : Int)) : ℚ) = σ * n := by
      rw [fl_int]
      · push_cast; rfl
      · rcases hσ with rfl | rfl <;> rw [abs_lt] <;> omega
    have hflσ : fl (σ : ℚ) = σ := fl_int (by rcases hσ with rfl | rfl <;> norm_num)
    have hstep : fl (σ : ℚ) / (σ * n) = 1 / n := by
      rw [hflσ]; rcases hσ with rfl | rfl <;> push_cast <;> field_simp
    have hinit : fl (fl ((max σ 0 : Int) : ℚ) - 1 / 2) / (σ * n) = 1 / 2 / n := by
      have e1 : fl 1 = 1 := by decide +kernel
      have e2 : fl 0 = 0 := fl_zero
      have e3 : fl (1 / 2) = 1 / 2 := by decide +kernel
      have e4 : fl (-(1 / 2)) = -(1 / 2) := by decide +kernel
      rcases hσ with rfl | rfl
      · rw [show max (1 : Int) 0 = 1 by decide]; push_cast; rw [e1, show (1 : ℚ) - 1 / 2 = 1 / 2 by norm_num, e3, one_mul]
      · rw [show max (-1 : Int) 0 = 0 by decide]; push_cast; rw [e2, show (0 : ℚ) - 1 / 2 = -(1 / 2) by norm_num, e4]; field_simp
    rw [hsign, hflD, hstep, hinit, hDn]
    obtain ⟨δ1, h1, e1⟩ := fl_factor (1 / (n : ℚ))
    obtain ⟨δ2, h2, e2⟩ := fl_factor (1 / 2 / (n : ℚ))
    refine ⟨?_, isFloat_fl _, fun k hk => ?_⟩
    · have := fl_mono (show (0 : ℚ) ≤ 1 / n by positivity)
      rwa [fl_zero] at this
    · refine times_err (A := 1) ?_ ?_ (by norm_num) k ?_
      · rw [e2, show 1 / 2 / (n : ℚ) * (1 + δ2) * n - 1 / 2 = δ2 / 2 by field_simp; ring, abs_div]
        norm_num at h2 ⊢; linarith
      · rw [e1, show 1 / (n : ℚ) * (1 + δ1) * n - 1 = δ1 by field_simp; ring]
        norm_num at h1 ⊢; linarith
      · have : (k : ℚ) ≤ 2800 := by exact_mod_cast (by omega : k ≤ 2800)
        have hk0 : (0 : ℚ) ≤ k := Nat.cast_nonneg k
        rw [div_le_one (by norm_num)]
        nlinarith
  have still : ∀ i, (b i - a i).natAbs = 0 → ∀ k, times ((Single.rayOfIndices a b).tInit i) ((Single.rayOfIndices a b).tStep i) k
      ≤ times ((Single.rayOfIndices a b).tInit i) ((Single.rayOfIndices a b).tStep i) (k + 1) ∧ times ((Single.rayOfIndices a b).tInit i) ((Single.rayOfIndices a b).tStep i) 0 = 2 := by
    intro i hi k
    have hz : b i - a i = 0 := by omega
    simp only [Single.rayOfIndices, if_pos hz]
    exact ⟨times_mono ⟨1, 1, by norm_num, by norm_num⟩ (by norm_num) k, rfl⟩
  have o : Order (Single.rayOfIndices a b) fun i => (b i - a i).natAbs := by
    refine ⟨fun i => ?_, fun i hi => ?_, fun i k => ?_, fun i j hj => ?_⟩
    · show b i = a i + (b i - a i).sign * ((b i - a i).natAbs : Int)
      rw [Int.sign_mul_natAbs]; ring
    · show (b i - a i).sign = 1 ∨ (b i - a i).sign = -1
      rcases lt_trichotomy (b i - a i) 0 with h | h | h
      · exact Or.inr (Int.sign_eq_neg_one_of_neg h)
      · omega
      · exact Or.inl (Int.sign_eq_one_of_pos h)
    · rcases Nat.eq_zero_or_pos (b i - a i).natAbs with h0 | h0
      · exact (still i h0 k).1
      · obtain ⟨g1, g2, -⟩ := axis i h0
        exact times_mono g2 g1 k
    · have bound : ∀ n : Nat, n ≤ 2800 → (1 + (n : ℚ) ^ 2 + 8 * n) / 2 ^ 24 < 1 / 2 := by
        intro n hn
        have h1 : (n : ℚ) ≤ 2800 := by exact_mod_cast hn
        have h0 : (0 : ℚ) ≤ n := Nat.cast_nonneg n
        rw [div_lt_iff₀ (by norm_num)]
        nlinarith
      have hlt1 : times ((Single.rayOfIndices a b).tInit j) ((Single.rayOfIndices a b).tStep j) ((b j - a j).natAbs - 1) < 1 := by
        have h1 := (axis j hj).2.2 ((b j - a j).natAbs - 1) (by omega)
        have h2 := bound ((b j - a j).natAbs - 1) (by have := hn j; omega)
        have h3 := (abs_le.1 h1).2
        have hp : (0 : ℚ) < (b j - a j).natAbs := by exact_mod_cast hj
        generalize times ((Single.rayOfIndices a b).tInit j) ((Single.rayOfIndices a b).tStep j) ((b j - a j).natAbs - 1) = T at h3
        have h4 : ((((b j - a j).natAbs - 1 : Nat)) : ℚ) = (b j - a j).natAbs - 1 := by rw [Nat.cast_sub (by omega)]; norm_num
        have : T * (b j - a j).natAbs < 1 * (b j - a j).natAbs := by rw [one_mul]; rw [h4] at h3 h2; linarith
        exact lt_of_mul_lt_mul_right this hp.le
      refine hlt1.trans ?_
      rcases Nat.eq_zero_or_pos (b i - a i).natAbs with h0 | h0
      · simp only [h0]; rw [(still i h0 0).2]; norm_num
      · have h1 := (axis i h0).2.2 _ le_rfl
        have h2 := bound _ (hn i)
        have h3 := (abs_le.1 h1).1
        have hp : (0 : ℚ) < (b i - a i).natAbs := by exact_mod_cast h0
        generalize times ((Single.rayOfIndices a b).tInit i) ((Single.rayOfIndices a b).tStep i) ((b i - a i).natAbs) = T at h3 ⊢
        have : 1 * ((b i - a i).natAbs : ℚ) < T * (b i - a i).natAbs := by rw [one_mul]; linarith
        exact lt_of_mul_lt_mul_right this hp.le
  have hlen : cells.length = ∑ i, (b i - a i).natAbs + 1 := hl
  have hne : cells ≠ [] := by rintro rfl; simp at hlen
  obtain ⟨τ0, hτ0⟩ : ∃ τ : ℚ, ∀ i, τ ≤ (Single.rayOfIndices a b).tInit i := by
    rcases Nat.eq_zero_or_pos d with hd | hd
    · exact ⟨0, fun i => absurd i.2 (by omega)⟩
    · obtain ⟨k, hk⟩ := exists_minCoeff hd (Single.rayOfIndices a b).tInit
      exact ⟨_, hk⟩
  obtain ⟨h1, h2, h3⟩ := visit o _ cells hv (fun _ => 0) τ0 ⟨fun i => by simp [rayBegin], fun i => Nat.zero_le _, fun i hi => absurd hi (lt_irrefl 0), hτ0⟩
    (fun i => rfl) (by simp [hlen])
  obtain ⟨h4, h5⟩ := h1 hne
  refine ⟨h4, h5, h2, chain_nodup _ _ h2, fun cell hc => ?_⟩
  obtain ⟨c, τ, hat⟩ := h3 cell hc
  refine ⟨max 0 (min τ 1), le_max_left _ _, max_le (by norm_num) (min_le_right _ _), fun i => ?_⟩
  have herr0 : 0 ≤ rayError 0 (b i - a i).natAbs := by unfold rayError; positivity
  rcases Nat.eq_zero_or_pos (b i - a i).natAbs with h0 | h0
  · have hci : c i = 0 := by have := hat.le i; omega
    have hba : b i - a i = 0 := by omega
    have hce : cell i = a i := by have := hat.cell i; rw [hci] at this; simpa [Single.rayOfIndices] using this
    have hba' : (b i : ℚ) - a i = 0 := by exact_mod_cast hba
    rw [hce, hba', mul_zero, add_zero, sub_self, abs_zero]; linarith
  · obtain ⟨-, -, hax⟩ := axis i h0
    have hb : ∀ k ≤ (b i - a i).natAbs, (1 + (k : ℚ) ^ 2 + 8 * k) / 2 ^ 24 ≤ rayError 0 (b i - a i).natAbs := by
      intro k hk
      have h1 : (k : ℚ) ≤ (b i - a i).natAbs := by exact_mod_cast hk
      have hk0 : (0 : ℚ) ≤ k := Nat.cast_nonneg k
      unfold rayError
      rw [div_le_div_iff₀ (by norm_num) (by norm_num)]
      push_cast
      rw [abs_zero]
      generalize ((b i - a i).natAbs : ℚ) = n at h1
      nlinarith
    obtain ⟨t1, t2⟩ := touch_axis (X := ((b i - a i).natAbs : ℚ)) (D := 1 / 2) (c := c i) (by positivity) (fun k hk => (hax k hk).trans (hb k hk)) (by linarith) (by linarith)
      (fun _ => by linarith) (hat.le i) (hat.prev i) (hat.next i)
    generalize max 0 (min τ 1) = t at t1 t2
    have hcell := hat.cell i
    have hsn : (b i - a i).sign * ((b i - a i).natAbs : Int) = b i - a i := Int.sign_mul_natAbs _
    have hX : ((b i : ℚ) - a i) = (b i - a i).sign * (b i - a i).natAbs := by rw [← Int.cast_natCast (R := ℚ), ← Int.cast_mul, hsn]; push_cast; rfl
    have hcq : (cell i : ℚ) = a i + (b i - a i).sign * c i := by rw [hcell]; push_cast; rfl
    rw [hcq, hX]
    rcases o.sign i h0 with e | e
    · rw [show (b i - a i).sign = 1 from e]; rw [abs_le]; push_cast; constructor <;> linarith
    · rw [show (b i - a i).sign = -1 from e]; rw [abs_le]; push_cast; constructor <;> linarith

/-- The first cell of a ray contains its first point, up to the error. -/
theorem start_err (p : Point d) (w : ℚ) (hw : 0 < w) (i : Fin d) (n : Nat) (h : rayError (Single.pointToNearestIndex p (fl (1 / w)) i) n < 1 / 2) :
    -rayError (Single.pointToNearestIndex p (fl (1 / w)) i) n ≤ p i / w - Single.pointToNearestIndex p (fl (1 / w)) i ∧
      p i / w - Single.pointToNearestIndex p (fl (1 / w)) i ≤ 1 + rayError (Single.pointToNearestIndex p (fl (1 / w)) i) n := by
  obtain ⟨h1, h2⟩ := C79_nearest_contains p w hw i
  rw [← le_div_iff₀ hw] at h1
  rw [← div_le_iff₀ hw] at h2
  generalize Single.pointToNearestIndex p (fl (1 / w)) i = s at h h1 h2 ⊢
  generalize p i / w = x at h1 h2 ⊢
  unfold cellError at h1 h2
  have hn : (16 : ℚ) ≤ (n + 4) ^ 2 := by nlinarith [Nat.cast_nonneg (α := ℚ) n]
  unfold rayError at h ⊢
  generalize ((n : ℚ) + 4) ^ 2 = m at h hn ⊢
  have hx : |x| ≤ |(s : ℚ)| + 2 := by
    rw [div_lt_iff₀ (by norm_num)] at h
    have e1 : (|x| + 1) / 2 ^ 22 * 2 ^ 22 = |x| + 1 := by field_simp
    generalize (|x| + 1) / 2 ^ 22 = c at e1 h1 h2
    have a1 : |x| ≤ |(s : ℚ)| + 1 + c := by
      have b1 := le_abs_self (s : ℚ)
      have b2 := neg_abs_le (s : ℚ)
      rw [abs_le]
      constructor <;> linarith
    norm_num at h e1
    linarith
  have hc : (|x| + 1) / 2 ^ 22 ≤ (|(s : ℚ)| + m) / 2 ^ 22 := div_le_div_of_nonneg_right (by linarith) (by norm_num)
  constructor <;> linarith

/-- C88 (rays between points): if the end point is further than the error from the border of its cell, the rounded iteration starts at the cell that the first point is assigned to and
ends at the cell of the second one, moves by one step towards the end each time, visits no cell twice, and each visited cell is touched by the line between the points, up to the error. Missing: end points closer to the border of their cell, see `C88_overshoot_fails`. -/
theorem C88_point_ray_partial (p q : Point d) (w : ℚ) (hw : 0 < w) (hf : IsFloat w) (s e : Index d) (hs : s = Single.pointToNearestIndex p (fl (1 / w)))
    (he : e = Single.pointToNearestIndex q (fl (1 / w)))
    (hend : ∀ i, (e i : ℚ) + rayError (s i) (e i - s i).natAbs < q i / w ∧ q i / w < e i + 1 - rayError (s i) (e i - s i).natAbs)
    (cells : List (Index d)) (h : Single.RayCells (Single.rayOfPoints p q w) cells) :
    cells.head? = some s ∧ cells.getLast? = some e ∧ cells.IsChain (StepTowards e) ∧ cells.Nodup ∧
    ∀ cell ∈ cells, ∃ t : ℚ, 0 ≤ t ∧ t ≤ 1 ∧ ∀ i, (cell i : ℚ) - rayError (s i) (e i - s i).natAbs ≤ (p i + t * (q i - p i)) / w ∧
      (p i + t * (q i - p i)) / w ≤ cell i + 1 + rayError (s i) (e i - s i).natAbs := by
  obtain ⟨hl, hv⟩ := h
  have hε : ∀ i, rayError (s i) (e i - s i).natAbs < 1 / 2 := fun i => by linarith [(hend i).1, (hend i).2]
  have hst : ∀ i, -rayError (s i) (e i - s i).natAbs ≤ p i / w - s i ∧ p i / w - s i ≤ 1 + rayError (s i) (e i - s i).natAbs := by
    intro i; rw [hs]; exact start_err p w hw i _ (by rw [← hs]; exact hε i)
  -- the signs
  have hsg : ∀ i, (Single.rayOfPoints p q w).signs i = ratSign (q i - p i) := fun i => (fl_sign _).2
  have hv0 : 0 ≤ fl (1 / w) := by
    have := fl_mono (show (0 : ℚ) ≤ 1 / w by positivity)
    rwa [fl_zero] at this
  -- the axes along which the ray moves
  have axis : ∀ i, q i - p i ≠ 0 → ∃ σ : Int, (σ = 1 ∨ σ = -1) ∧ (Single.rayOfPoints p q w).signs i = σ ∧ e i = s i + σ * (e i - s i).natAbs ∧
      0 < σ * (q i - p i) / w ∧ 0 ≤ (Single.rayOfPoints p q w).tStep i ∧ IsFloat ((Single.rayOfPoints p q w).tInit i) ∧
      ∀ k ≤ (e i - s i).natAbs, |times ((Single.rayOfPoints p q w).tInit i) ((Single.rayOfPoints p q w).tStep i) k * (σ * (q i - p i) / w)
        - (σ * ((max σ 0 : Int) - (p i / w - s i)) + k)| ≤ rayError (s i) (e i - s i).natAbs := by
    intro i hi
    obtain ⟨σ, hσ, hrs, hpos, hes⟩ : ∃ σ : Int, (σ = 1 ∨ σ = -1) ∧ ratSign (q i - p i) = σ ∧ 0 < σ * (q i - p i) ∧ e i = s i + σ * (e i - s i).natAbs := by
      rcases lt_or_gt_of_ne hi with h | h
      · refine ⟨-1, Or.inr rfl, ?_, ?_, ?_⟩
        · unfold ratSign; rw [if_neg (by linarith), if_pos h]
        · push_cast; linarith
        · have : e i ≤ s i := by rw [hs, he]; exact cell_mono (by linarith) hv0
          omega
      · refine ⟨1, Or.inl rfl, ?_, ?_, ?_⟩
        · unfold ratSign; rw [if_pos h]
        · push_cast; linarith
        · have : s i ≤ e i := by rw [hs, he]; exact cell_mono (by linarith) hv0
          omega
    have hnz : ¬ fl (q i - p i) = 0 := fun h => hi ((fl_sign _).1.1 h)
    have hεi := hε i
    have hsi := hst i
    have hs22 : |(s i : ℚ)| ≤ 2 ^ 22 := by
      unfold rayError at hεi
      rw [div_lt_iff₀ (by norm_num)] at hεi
      nlinarith [sq_nonneg (((e i - s i).natAbs : ℚ) + 4)]
    have ha : |p i / w - s i| ≤ 2 := by rw [abs_le]; constructor <;> linarith
    have ha' : |1 - (p i / w - s i)| ≤ 2 := by rw [abs_le]; constructor <;> linarith
    obtain ⟨g1, g2, g3⟩ := point_axis hσ hw hf hpos hs22 ha ha'
    have eI : (Single.rayOfPoints p q w).tInit i = fl (fl (fl (fl (max σ 0 : Int) * w) - fl (p i - fl (fl (s i) * w))) / fl (q i - p i)) := by
      simp only [Single.rayOfPoints, if_neg hnz, Single.indexToMinCorner, (fl_sign _).2, hrs, ← hs]
    have eS : (Single.rayOfPoints p q w).tStep i = fl (fl (fl σ * w) / fl (q i - p i)) := by
      simp only [Single.rayOfPoints, if_neg hnz, Single.indexToMinCorner, (fl_sign _).2, hrs]
    refine ⟨σ, hσ, by rw [hsg, hrs], hes, div_pos hpos hw, by rw [eS]; exact g3, by rw [eI]; exact isFloat_fl _, fun k hk => ?_⟩
    rw [eI, eS]
    have hk1 : (k : ℚ) ≤ (e i - s i).natAbs := by exact_mod_cast hk
    have hk0 : (0 : ℚ) ≤ k := Nat.cast_nonneg k
    have hle : ((|(s i : ℚ)| + 11) + k ^ 2 + 8 * k) / 2 ^ 24 ≤ rayError (s i) (e i - s i).natAbs := by
      unfold rayError
      rw [div_le_div_iff₀ (by norm_num) (by norm_num)]
      have := abs_nonneg (s i : ℚ)
      generalize |(s i : ℚ)| = m at this
      generalize (((e i - s i).natAbs : Nat) : ℚ) = n at hk1
      nlinarith
    refine (times_err g1 g2 ?_ k (hle.trans (by linarith))).trans hle
    rw [abs_mul]
    rcases hσ with rfl | rfl
    · rw [show max (1 : Int) 0 = 1 by decide]; push_cast; rw [abs_one, one_mul]; exact ha'
    · rw [show max (-1 : Int) 0 = 0 by decide]; push_cast; rw [abs_neg, abs_one, one_mul, zero_sub, abs_neg]; exact ha
  have still : ∀ i, q i - p i = 0 → e i = s i ∧ ∀ k, times ((Single.rayOfPoints p q w).tInit i) ((Single.rayOfPoints p q w).tStep i) k
      ≤ times ((Single.rayOfPoints p q w).tInit i) ((Single.rayOfPoints p q w).tStep i) (k + 1) ∧ times ((Single.rayOfPoints p q w).tInit i) ((Single.rayOfPoints p q w).tStep i) 0 = 2 := by
    intro i hi
    refine ⟨?_, fun k => ?_⟩
    · have : q i = p i := by linarith
      rw [hs, he]
      simp only [Single.pointToNearestIndex, Single.scaledPointToNearestIndex, this]
    · have hz : fl (q i - p i) = 0 := (fl_sign _).1.2 hi
      simp only [Single.rayOfPoints, if_pos hz]
      exact ⟨times_mono ⟨1, 1, by norm_num, by norm_num⟩ (by norm_num) k, rfl⟩
  -- the end of the ray, as seen from its first boundary
  have fin : ∀ i (σ : Int), (σ = 1 ∨ σ = -1) → e i = s i + σ * (e i - s i).natAbs →
      σ * ((max σ 0 : Int) - (p i / w - s i)) + (e i - s i).natAbs - 1 + rayError (s i) (e i - s i).natAbs < σ * (q i - p i) / w ∧
      σ * (q i - p i) / w < σ * ((max σ 0 : Int) - (p i / w - s i)) + (e i - s i).natAbs - rayError (s i) (e i - s i).natAbs := by
    intro i σ hσ hes
    obtain ⟨h1, h2⟩ := hend i
    have hes' : (e i : ℚ) = s i + σ * (e i - s i).natAbs := by
      have : ((e i : Int) : ℚ) = ((s i + σ * ((e i - s i).natAbs : Int) : Int) : ℚ) := congrArg _ hes
      rw [this, Int.cast_add, Int.cast_mul, Int.cast_natCast]
    have hX : (σ : ℚ) * (q i - p i) / w = σ * (q i / w - p i / w) := by ring
    rw [hX]
    generalize rayError (s i) (e i - s i).natAbs = ε at h1 h2 ⊢
    generalize (((e i - s i).natAbs : Nat) : ℚ) = n at hes' ⊢
    rcases hσ with rfl | rfl
    · rw [show max (1 : Int) 0 = 1 by decide]; push_cast at hes' ⊢; constructor <;> linarith
    · rw [show max (-1 : Int) 0 = 0 by decide]; push_cast at hes' ⊢; constructor <;> linarith
  have o : Order (Single.rayOfPoints p q w) fun i => (e i - s i).natAbs := by
    refine ⟨fun i => ?_, fun i hi => ?_, fun i k => ?_, fun i j hj => ?_⟩
    · show Single.pointToNearestIndex q (fl (1 / w)) i = Single.pointToNearestIndex p (fl (1 / w)) i + (Single.rayOfPoints p q w).signs i * ((e i - s i).natAbs : Int)
      rw [← hs, ← he]
      by_cases hi : q i - p i = 0
      · rw [(still i hi).1]; simp
      · obtain ⟨σ, -, e1, e2, -⟩ := axis i hi
        rw [e1]; exact e2
    · by_cases hi0 : q i - p i = 0
      · rw [(still i hi0).1] at hi; simp at hi
      · obtain ⟨σ, h1, e1, -⟩ := axis i hi0
        rw [e1]; exact h1
    · by_cases hi : q i - p i = 0
      · exact ((still i hi).2 k).1
      · obtain ⟨σ, -, -, -, -, g1, g2, -⟩ := axis i hi
        exact times_mono g2 g1 k
    · have hj0 : q j - p j ≠ 0 := fun hj0 => by rw [(still j hj0).1] at hj; simp at hj
      have hlt1 : times ((Single.rayOfPoints p q w).tInit j) ((Single.rayOfPoints p q w).tStep j) ((e j - s j).natAbs - 1) < 1 := by
        obtain ⟨σ, hσ, -, hes, hp, -, -, hk⟩ := axis j hj0
        have h1 := (abs_le.1 (hk ((e j - s j).natAbs - 1) (by omega))).2
        have h2 := (fin j σ hσ hes).1
        rw [Nat.cast_sub (show 1 ≤ (e j - s j).natAbs by omega)] at h1
        push_cast at h1 h2
        refine lt_of_mul_lt_mul_right ?_ hp.le
        rw [one_mul]
        linarith
      refine hlt1.trans ?_
      by_cases hi : q i - p i = 0
      · have : (e i - s i).natAbs = 0 := by rw [(still i hi).1]; simp
        simp only [this]
        rw [((still i hi).2 0).2]; norm_num
      · obtain ⟨σ, hσ, -, hes, hp, -, -, hk⟩ := axis i hi
        have h1 := (abs_le.1 (hk _ le_rfl)).1
        have h2 := (fin i σ hσ hes).2
        refine lt_of_mul_lt_mul_right ?_ hp.le
        rw [one_mul]
        linarith
  have hlen : cells.length = ∑ i, (e i - s i).natAbs + 1 := by rw [hs, he]; exact hl
  have hne : cells ≠ [] := by rintro rfl; simp at hlen
  obtain ⟨τ0, hτ0⟩ : ∃ τ : ℚ, ∀ i, τ ≤ (Single.rayOfPoints p q w).tInit i := by
    rcases Nat.eq_zero_or_pos d with hd | hd
    · exact ⟨0, fun i => absurd i.2 (by omega)⟩
    · obtain ⟨k, hk⟩ := exists_minCoeff hd (Single.rayOfPoints p q w).tInit
      exact ⟨_, hk⟩
  obtain ⟨h1, h2, h3⟩ := visit o _ cells hv (fun _ => 0) τ0 ⟨fun i => by simp [rayBegin], fun i => Nat.zero_le _, fun i hi => absurd hi (lt_irrefl 0), hτ0⟩
    (fun i => rfl) (by simp [hlen])
  obtain ⟨h4, h5⟩ := h1 hne
  have hstop : (Single.rayOfPoints p q w).stop = e := he.symm
  have hstart : (Single.rayOfPoints p q w).start = s := hs.symm
  rw [hstop] at h2 h5
  refine ⟨by rw [h4]; exact congrArg some hstart, h5, h2, chain_nodup _ _ h2, fun cell hc => ?_⟩
  obtain ⟨c, τ, hat⟩ := h3 cell hc
  refine ⟨max 0 (min τ 1), le_max_left _ _, max_le (by norm_num) (min_le_right _ _), fun i => ?_⟩
  obtain ⟨hs1, hs2⟩ := hst i
  have hcell := hat.cell i
  rw [hstart] at hcell
  by_cases hi : q i - p i = 0
  · have hci : c i = 0 := by
      have := hat.le i
      simp only [(still i hi).1, sub_self, Int.natAbs_zero] at this
      omega
    have hce : cell i = s i := by rw [hci] at hcell; simpa using hcell
    rw [hce, hi, mul_zero, add_zero]
    constructor <;> linarith
  · obtain ⟨σ, hσ, hsig, hes, hp, -, -, hk⟩ := axis i hi
    obtain ⟨f1, f2⟩ := fin i σ hσ hes
    have hD : -rayError (s i) (e i - s i).natAbs ≤ σ * ((max σ 0 : Int) - (p i / w - s i)) ∧ σ * ((max σ 0 : Int) - (p i / w - s i)) ≤ 1 + rayError (s i) (e i - s i).natAbs := by
      rcases hσ with rfl | rfl
      · rw [show max (1 : Int) 0 = 1 by decide]; push_cast; constructor <;> linarith
      · rw [show max (-1 : Int) 0 = 0 by decide]; push_cast; constructor <;> linarith
    have hε0 : 0 ≤ rayError (s i) (e i - s i).natAbs := by unfold rayError; positivity
    obtain ⟨t1, t2⟩ := touch_axis hp.le hk hD.1 hD.2 (fun _ => by linarith) (hat.le i) (hat.prev i) (hat.next i)
    generalize max 0 (min τ 1) = t at t1 t2 ⊢
    rw [hsig] at hcell
    have hcq : (cell i : ℚ) = s i + σ * c i := by rw [hcell]; push_cast; rfl
    have e1 : (p i + t * (q i - p i)) / w = p i / w + t * ((q i - p i) / w) := by ring
    have e2 : (σ : ℚ) * (q i - p i) / w = σ * ((q i - p i) / w) := by ring
    rw [hcq, e1]
    rw [e2] at t1 t2
    generalize (q i - p i) / w = Y at t1 t2 ⊢
    rcases hσ with rfl | rfl
    · rw [show max (1 : Int) 0 = 1 by decide] at t1 t2; push_cast at t1 t2 ⊢; constructor <;> linarith
    · rw [show max (-1 : Int) 0 = 0 by decide] at t1 t2; push_cast at t1 t2 ⊢; constructor <;> linarith

/-- An end point that the exact and the rounded computation assign to the same cell, but that is close to the border of this cell. -/
def overshootEnd : Point 3 := ![3 / 16, 3, 1 / 32]

/-- The start point for `overshootEnd`. -/
def overshootStart : Point 3 := ![1 / 32, 3 - 1 / 2 ^ 22, 1 / 32]

/-- C88 (ends on a border): for cells of 0.1 m, the ray from (1/32, the float below 3, 1/32) to (3/16, 3, 1/32) goes past its end: it visits the cells (0, 29, 0), (1, 29, 0) and (2, 29, 0), while its end
is in (1, 30, 0). -/
theorem C88_overshoot_fails : IsFloat (fl (1 / 10)) ∧ (∀ i, IsFloat (overshootStart i) ∧ IsFloat (overshootEnd i)) ∧
    Single.pointToNearestIndex overshootEnd (fl (1 / fl (1 / 10))) = ![1, 30, 0] ∧
    (∃ cells, Single.RayCells (Single.rayOfPoints overshootStart overshootEnd (fl (1 / 10))) cells) ∧
    ∀ cells, Single.RayCells (Single.rayOfPoints overshootStart overshootEnd (fl (1 / 10))) cells → cells = [![0, 29, 0], ![1, 29, 0], ![2, 29, 0]] := by
  have hm : ∀ (r : Ray 3) (k : Fin 3) (t : Fin 3 → ℚ), IsMinCoeff t k → t 0 < t 1 ∧ t 0 < t 2 → k = 0 := by
    intro r k t h1 h2
    have := h1 0
    fin_cases k
    · rfl
    · exact absurd this (not_le.2 h2.1)
    · exact absurd this (not_le.2 h2.2)
  have e0 : (rayBegin (Single.rayOfPoints overshootStart overshootEnd (fl (1 / 10)))).current = ![0, 29, 0] := by decide +kernel
  have e1 : (Single.rayNext (Single.rayOfPoints overshootStart overshootEnd (fl (1 / 10))) 0 (rayBegin (Single.rayOfPoints overshootStart overshootEnd (fl (1 / 10))))).current = ![1, 29, 0] := by
    decide +kernel
  have e2 : (Single.rayNext (Single.rayOfPoints overshootStart overshootEnd (fl (1 / 10))) 0
      (Single.rayNext (Single.rayOfPoints overshootStart overshootEnd (fl (1 / 10))) 0 (rayBegin (Single.rayOfPoints overshootStart overshootEnd (fl (1 / 10)))))).current = ![2, 29, 0] := by
    decide +kernel
  have t0 : (rayBegin (Single.rayOfPoints overshootStart overshootEnd (fl (1 / 10)))).tNext 0 < (rayBegin (Single.rayOfPoints overshootStart overshootEnd (fl (1 / 10)))).tNext 1 ∧
      (rayBegin (Single.rayOfPoints overshootStart overshootEnd (fl (1 / 10)))).tNext 0 < (rayBegin (Single.rayOfPoints overshootStart overshootEnd (fl (1 / 10)))).tNext 2 := by
    decide +kernel
  have t1 : (Single.rayNext (Single.rayOfPoints overshootStart overshootEnd (fl (1 / 10))) 0 (rayBegin (Single.rayOfPoints overshootStart overshootEnd (fl (1 / 10))))).tNext 0 < (Single.rayNext (Single.rayOfPoints overshootStart overshootEnd (fl (1 / 10))) 0 (rayBegin (Single.rayOfPoints overshootStart overshootEnd (fl (1 / 10))))).tNext 1 ∧
      (Single.rayNext (Single.rayOfPoints overshootStart overshootEnd (fl (1 / 10))) 0 (rayBegin (Single.rayOfPoints overshootStart overshootEnd (fl (1 / 10))))).tNext 0 < (Single.rayNext (Single.rayOfPoints overshootStart overshootEnd (fl (1 / 10))) 0 (rayBegin (Single.rayOfPoints overshootStart overshootEnd (fl (1 / 10))))).tNext 2 := by
    decide +kernel
  have hlen : (Single.rayOfPoints overshootStart overshootEnd (fl (1 / 10))).lengthInSteps = 3 := by decide +kernel
  have hmin : ∀ t : Fin 3 → ℚ, t 0 < t 1 ∧ t 0 < t 2 → IsMinCoeff t 0 := by
    intro t h i
    fin_cases i
    · exact le_rfl
    · exact h.1.le
    · exact h.2.le
  refine ⟨isFloat_fl _, ?_, by decide +kernel, ?_, ?_⟩
  · have h : ∀ i, fl (overshootStart i) = overshootStart i ∧ fl (overshootEnd i) = overshootEnd i := by decide +kernel
    intro i
    rw [← (h i).1, ← (h i).2]
    exact ⟨isFloat_fl _, isFloat_fl _⟩
  · refine ⟨_, ?_, .next _ 0 _ (hmin _ t0) ?_ (.next _ 0 _ (hmin _ t1) ?_ (.last _))⟩
    · rw [hlen]; rfl
    · simp
    · simp
  · rintro cells ⟨hl, hv⟩
    rw [hlen] at hl
    generalize Single.rayOfPoints overshootStart overshootEnd (fl (1 / 10)) = r at *
    cases hv with
    | done => simp at hl
    | last => simp at hl
    | next _ k l hk hne hv =>
      obtain rfl := hm r k _ hk t0
      cases hv with
      | done => simp at hl
      | last => simp at hl
      | next _ k l hk hne hv =>
        obtain rfl := hm r k _ hk t1
        cases hv with
        | done => simp at hl
        | last => rw [e0, e1, e2]
        | next _ k l hk hne' hv =>
          have := List.length_pos_iff.2 hne'
          simp only [List.length_cons] at hl
          omega

/-- C88 (measured points): the ray-tracing integrator marks the cell of a point as occupied, last, if the point is further than the error from the border of this cell; and it marks the other
cells of the beam, in which the point is not, as free. -/
theorem C88_beam_partial (p q : Point 3) (w : ℚ) (hw : 0 < w) (hf : IsFloat w) (s e : Index 3) (hs : s = Single.pointToNearestIndex p (fl (1 / w)))
    (he : e = Single.pointToNearestIndex q (fl (1 / w)))
    (hend : ∀ i, (e i : ℚ) + rayError (s i) (e i - s i).natAbs < q i / w ∧ q i / w < e i + 1 - rayError (s i) (e i - s i).natAbs)
    (cells : List (Index 3)) (h : Single.RayCells (Single.rayOfPoints p q w) cells) (c : ConstantRayConfig) :
    ∃ free : List (Index 3), e ∉ free ∧ Single.beamUpdates c w q cells = free.map (fun i => (i, c.logOddsFree)) ++ [(e, c.logOddsOccupied)] := by
  obtain ⟨-, h2, -, h4, -⟩ := C88_point_ray_partial p q w hw hf s e hs he hend cells h
  obtain ⟨free, rfl⟩ := List.getLast?_eq_some_iff.1 h2
  have hn : e ∉ free := fun hc => by
    rw [List.nodup_append] at h4
    exact h4.2.2 e hc e (by simp) rfl
  refine ⟨free, hn, ?_⟩
  unfold Single.beamUpdates
  rw [← he, List.map_append]
  congr 1
  · refine List.map_congr_left fun i hi => ?_
    rw [if_neg]
    rintro rfl
    exact hn hi
  · simp

/-- C88 (measured points on a border): the ray-tracing integrator marks no cell as occupied for the point `overshootEnd` seen from `overshootStart`. -/
theorem C88_missed_return_fails (c : ConstantRayConfig) (cells : List (Index 3)) (h : Single.RayCells (Single.rayOfPoints overshootStart overshootEnd (fl (1 / 10))) cells) :
    Single.beamUpdates c (fl (1 / 10)) overshootEnd cells = [(![0, 29, 0], c.logOddsFree), (![1, 29, 0], c.logOddsFree), (![2, 29, 0], c.logOddsFree)] := by
  obtain ⟨-, -, e1, -, e2⟩ := C88_overshoot_fails
  rw [e2 cells h]
  unfold Single.beamUpdates
  rw [e1]
  have n0 : (![0, 29, 0] : Index 3) ≠ ![1, 30, 0] := by decide
  have n1 : (![1, 29, 0] : Index 3) ≠ ![1, 30, 0] := by decide
  have n2 : (![2, 29, 0] : Index 3) ≠ ![1, 30, 0] := by decide
  simp only [List.map_cons, List.map_nil, if_neg n0, if_neg n1, if_neg n2]

/-- The hypotheses of `C88_index_ray` hold of a ray of 1000 cells. -/
example : ∀ i, ((![1000, -500, 3] : Index 3) i - (![0, 0, 0] : Index 3) i).natAbs ≤ 2800 := by decide +kernel

/-- There always are such cells. -/
theorem SingleRay.exists_cells (r : Ray d) (hd : 0 < d) (hr : 0 < r.lengthInSteps) : ∃ cells, Single.RayCells r cells := by
  have : ∀ n (s : RayState d), ∃ l : List (Index d), l.length = n + 1 ∧ Single.RayVisit r s l := by
    intro n
    induction n with
    | zero => exact fun s => ⟨[s.current], rfl, .last s⟩
    | succ n ih =>
      intro s
      obtain ⟨k, hk⟩ := exists_minCoeff hd s.tNext
      obtain ⟨l, hl, hv⟩ := ih (Single.rayNext r k s)
      exact ⟨s.current :: l, by simp [hl], .next s k l hk (by rintro rfl; simp at hl) hv⟩
  obtain ⟨l, hl, hv⟩ := this (r.lengthInSteps - 1) (rayBegin r)
  exact ⟨l, by omega, hv⟩

/-- The hypotheses of `C88_point_ray_partial` hold of a ray through cells of 0.1 m. -/
example : let p : Point 2 := ![1 / 32, 3 - 1 / 2 ^ 22]
    let q : Point 2 := ![-5 / 2 + 1 / 16, 9 / 2 + 1 / 32]
    let s := Single.pointToNearestIndex p (fl (1 / fl (1 / 10)))
    let e := Single.pointToNearestIndex q (fl (1 / fl (1 / 10)))
    (∀ i, (e i : ℚ) + rayError (s i) (e i - s i).natAbs < q i / fl (1 / 10) ∧ q i / fl (1 / 10) < e i + 1 - rayError (s i) (e i - s i).natAbs) ∧
    ∃ cells, Single.RayCells (Single.rayOfPoints p q (fl (1 / 10))) cells ∧ cells.length = 42 := by
  intro p q s e
  refine ⟨by decide +kernel, ?_⟩
  have h : (Single.rayOfPoints p q (fl (1 / 10))).lengthInSteps = 42 := by decide +kernel
  obtain ⟨cells, hc⟩ := SingleRay.exists_cells (Single.rayOfPoints p q (fl (1 / 10))) (by norm_num) (by rw [h]; norm_num)
  exact ⟨cells, hc, hc.1.trans h⟩

end Wavemap
