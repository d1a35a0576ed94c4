import Verif.Model.SingleRay
import Verif.Lemmas.Ray
import Verif.Lemmas.Float32
import Mathlib.Tactic.Positivity
import Mathlib.Tactic.NormNum
import Mathlib.Tactic.FieldSimp
/-!
# Lemmas for C88: a walk that crosses the boundaries in the order of inexact times
-/
namespace Wavemap
namespace SingleRay
variable {d : Nat}

/-- The time of the `k`-th boundary along an axis. -/
def times (init step : ℚ) : Nat → ℚ
  | 0 => init
  | k + 1 => fl (times init step k + step)

/-- What the walk needs: how many steps to take along each axis, and that all these come before any further one. -/
structure Order (r : Ray d) (n : Fin d → Nat) : Prop where
  stop : ∀ i, r.stop i = r.start i + r.signs i * n i
  sign : ∀ i, 0 < n i → r.signs i = 1 ∨ r.signs i = -1
  mono : ∀ i k, times (r.tInit i) (r.tStep i) k ≤ times (r.tInit i) (r.tStep i) (k + 1)
  before : ∀ i j, 0 < n j → times (r.tInit j) (r.tStep j) (n j - 1) < times (r.tInit i) (r.tStep i) (n i)

theorem Order.le {r : Ray d} {n} (o : Order r n) (i : Fin d) {k l : Nat} (h : k ≤ l) : times (r.tInit i) (r.tStep i) k ≤ times (r.tInit i) (r.tStep i) l :=
  monotone_nat_of_le_succ (o.mono i) h

/-- The state after `c i` steps along each axis `i`, the last one at time `τ`. -/
structure At (r : Ray d) (n : Fin d → Nat) (cell : Index d) (c : Fin d → Nat) (τ : ℚ) : Prop where
  cell : ∀ i, cell i = r.start i + r.signs i * c i
  le : ∀ i, c i ≤ n i
  prev : ∀ i, 0 < c i → times (r.tInit i) (r.tStep i) (c i - 1) ≤ τ
  next : ∀ i, τ ≤ times (r.tInit i) (r.tStep i) (c i)

theorem visit {r : Ray d} {n} (o : Order r n) (s : RayState d) (l : List (Index d)) (hv : Single.RayVisit r s l) (c : Fin d → Nat) (τ : ℚ) (h : At r n s.current c τ)
    (ht : ∀ i, s.tNext i = times (r.tInit i) (r.tStep i) (c i)) (hl : l.length + ∑ i, c i = ∑ i, n i + 1) :
    (l ≠ [] → l.head? = some s.current ∧ l.getLast? = some r.stop) ∧ l.IsChain (StepTowards r.stop) ∧ ∀ cell ∈ l, ∃ c τ, At r n cell c τ := by
  induction hv generalizing c τ with
  | done s => exact ⟨fun h => absurd rfl h, List.IsChain.nil, by simp⟩
  | last s =>
    refine ⟨fun _ => ⟨rfl, ?_⟩, List.IsChain.singleton _, fun cell hc => ?_⟩
    · simp only [List.getLast?_singleton, Option.some.injEq]
      have hs : ∑ i, c i = ∑ i, n i := by simp at hl; omega
      have e : ∀ i, c i = n i := fun i => (Finset.sum_eq_sum_iff_of_le fun i _ => h.le i).1 hs i (Finset.mem_univ i)
      funext i
      rw [h.cell, o.stop, e]
    · simp only [List.mem_singleton] at hc
      exact ⟨c, τ, hc ▸ h⟩
  | next s k l hk hne hv ih =>
    have hpos : 0 < l.length := List.length_pos_iff.2 hne
    have hlt : c k < n k := by
      by_contra hcon
      have hck : c k = n k := le_antisymm (h.le k) (not_lt.1 hcon)
      obtain ⟨j, hj⟩ : ∃ j, c j < n j := by
        by_contra hall
        push Not at hall
        have : ∑ i, n i ≤ ∑ i, c i := Finset.sum_le_sum fun i _ => hall i
        simp only [List.length_cons] at hl
        omega
      have h1 := hk j
      rw [ht, ht, hck] at h1
      have h2 := o.before k j (by omega)
      have h3 := o.le j (show c j ≤ n j - 1 by omega)
      linarith
    have h' : At r n (Single.rayNext r k s).current (fun i => if i = k then c i + 1 else c i) (s.tNext k) := by
      refine ⟨fun i => ?_, fun i => ?_, fun i hi => ?_, fun i => ?_⟩
      · show (if i = k then s.current i + r.signs i else s.current i) = _
        split_ifs with e
        · rw [h.cell]; push_cast; ring
        · exact h.cell i
      · split_ifs with e
        · rw [e]; exact hlt
        · exact h.le i
      · split_ifs at hi ⊢ with e
        · subst e; rw [ht, Nat.add_sub_cancel]
        · exact (h.prev i hi).trans ((h.next k).trans (ht k).ge)
      · split_ifs with e
        · subst e; rw [ht]; exact o.mono _ _
        · have := hk i
          rwa [ht i] at this
    obtain ⟨g1, g2, g3⟩ := ih _ _ h' (fun i => by
      show (if i = k then fl (s.tNext i + r.tStep i) else s.tNext i) = _
      split_ifs with e
      · rw [ht]; rfl
      · exact ht i) (by rw [sum_ite_succ]; simp only [List.length_cons] at hl; omega)
    obtain ⟨g4, g5⟩ := g1 hne
    refine ⟨fun _ => ⟨rfl, ?_⟩, ?_, fun cell hc => ?_⟩
    · rw [List.getLast?_cons, g5]; rfl
    · rw [List.isChain_cons]
      refine ⟨fun y hy => ?_, g2⟩
      rw [g4, Option.mem_some_iff] at hy
      subst hy
      refine ⟨k, fun i hi => if_neg hi, ?_, ?_⟩
      · show |(if k = k then s.current k + r.signs k else s.current k) - s.current k| = 1
        rw [if_pos rfl, add_sub_cancel_left]
        rcases o.sign k (by omega) with e | e <;> rw [e] <;> rfl
      · show |r.stop k - (if k = k then s.current k + r.signs k else s.current k)| + 1 = |r.stop k - s.current k|
        rw [if_pos rfl, o.stop, h.cell]
        have hlt' : (c k : Int) < n k := by exact_mod_cast hlt
        rcases o.sign k (by omega) with e | e <;> rw [e]
        · rw [abs_of_nonneg (by omega), abs_of_nonneg (by omega)]; omega
        · rw [abs_of_nonpos (by omega), abs_of_nonpos (by omega)]; omega
    · rcases List.mem_cons.1 hc with rfl | hc
      · exact ⟨c, τ, h⟩
      · exact g3 cell hc

/-- The times do not decrease. -/
theorem times_mono {init step : ℚ} (h0 : IsFloat init) (hs : 0 ≤ step) (k : Nat) : times init step k ≤ times init step (k + 1) := by
  have hf : IsFloat (times init step k) := by
    cases k with
    | zero => exact h0
    | succ k => exact isFloat_fl _
  show _ ≤ fl (times init step k + step)
  calc times init step k = fl (times init step k) := (fl_of_isFloat hf).symm
    _ ≤ _ := fl_mono (by linarith)

/-- The times are close to the exact ones. `X` is the number of cells that the ray moves along this axis, and `D` how far the first boundary is. -/
theorem times_err {init step X D A : ℚ} (hi : |init * X - D| ≤ A / 2 ^ 24) (hs : |step * X - 1| ≤ 3 / 2 ^ 24) (hD : |D| ≤ 2) (k : Nat)
    (hk : (A + k ^ 2 + 8 * k) / 2 ^ 24 ≤ 1) : |times init step k * X - (D + k)| ≤ (A + k ^ 2 + 8 * k) / 2 ^ 24 := by
  induction k with
  | zero => simpa [times] using hi
  | succ k ih =>
    push_cast at hk ⊢
    have hA : 0 ≤ A := by
      have := (abs_nonneg _).trans hi
      by_contra hcon
      push Not at hcon
      linarith [div_neg_of_neg_of_pos hcon (show (0 : ℚ) < 2 ^ 24 by norm_num)]
    have hk0 : (0 : ℚ) ≤ k := Nat.cast_nonneg k
    have h1 := ih (by rw [div_le_one (by norm_num)] at hk ⊢; nlinarith)
    have h1' : |times init step k * X - (D + k)| ≤ 1 := h1.trans (by rw [div_le_one (by norm_num)] at hk ⊢; nlinarith)
    have h2 := fl_err (times init step k + step)
    show |fl (times init step k + step) * X - (D + (k + 1))| ≤ _
    generalize times init step k = T at h1 h1' h2
    obtain ⟨δ, hδ, e⟩ := fl_factor (T + step)
    rw [e]
    have e2 : (T + step) * (1 + δ) * X - (D + (k + 1)) = (T * X - (D + k)) + (step * X - 1) + δ * ((T * X - (D + k)) + (step * X - 1) + (D + (k + 1))) := by ring
    rw [e2]
    generalize T * X - (D + k) = a at h1 h1'
    generalize step * X - 1 = b at hs
    have h3 : |δ * (a + b + (D + (k + 1)))| ≤ 1 / 2 ^ 24 * (k + 5) := by
      rw [abs_mul]
      have : |a + b + (D + (k + 1))| ≤ k + 5 := by
        have hs' : |b| ≤ 1 := hs.trans (by norm_num)
        rw [abs_le] at h1' hs' hD ⊢
        constructor <;> linarith
      exact mul_le_mul hδ this (abs_nonneg _) (by norm_num)
    refine (abs_add_le _ _).trans ((add_le_add ((abs_add_le _ _).trans (add_le_add h1 hs)) h3).trans ?_)
    rw [← sub_nonneg]
    have : (A + (k + 1) ^ 2 + 8 * (k + 1)) / 2 ^ 24 - ((A + k ^ 2 + 8 * k) / 2 ^ 24 + 3 / 2 ^ 24 + 1 / 2 ^ 24 * (k + 5)) = (k + 1) / 2 ^ 24 := by ring
    rw [this]
    positivity

end SingleRay
end Wavemap
