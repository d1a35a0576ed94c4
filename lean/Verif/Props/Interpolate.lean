import Verif.Model.Interpolate
import Verif.Props.Points
import Mathlib.Tactic.Linarith
import Mathlib.Tactic.Ring
import Mathlib.Tactic.FieldSimp
import Mathlib.Tactic.FinCases
import Mathlib.Algebra.BigOperators.Fin
import Mathlib.Algebra.Order.Ring.Abs
/-!
# C28: interpolated queries

A map is given by its cell width `w` and the value `f j` of each cell. The centre of cell `j` is `(j + 1/2) w`.
-/
namespace Wavemap
namespace Interpolate

/-! ## Specification -/

/-- Cells whose centre is less than a cell width away from the point along each axis. -/
def Near (w : ℚ) (p : Point 3) (j : Index 3) : Prop := ∀ i, |p i - (j i + 1 / 2) * w| < w

/-- The tent function: 1 at 0, falling linearly to 0 at distance 1. -/
def tent (x : ℚ) : ℚ := max 0 (1 - |x|)

/-- The weight of a cell for trilinear interpolation at a point. -/
def tentWeight (w : ℚ) (p : Point 3) (j : Index 3) : ℚ :=
  tent ((p 0 - (j 0 + 1 / 2) * w) / w) * tent ((p 1 - (j 1 + 1 / 2) * w) / w) * tent ((p 2 - (j 2 + 1 / 2) * w) / w)

/-! ## Proofs -/

/-- The corner with the given offset. -/
def corner (w : ℚ) (p : Point 3) (x y z : Int) : Index 3 := ![pointToFloorIndex p (1 / w) 0 + x, pointToFloorIndex p (1 / w) 1 + y, pointToFloorIndex p (1 / w) 2 + z]

theorem corner_eq (w : ℚ) (p : Point 3) (k : Nat) (hk : k < 8) :
    (fun i => pointToFloorIndex p (1 / w) i + offset k i) = corner w p (offset k 0) (offset k 1) (offset k 2) := by
  funext i; fin_cases i <;> rfl

theorem weight_range {w : ℚ} (hw : 0 < w) (p : Point 3) (i : Fin 3) : 0 ≤ weight w p i ∧ weight w p i < 1 := by
  unfold weight pointToFloorIndex scaledPointToFloorIndex indexToCenterPoint
  have h1 := Int.floor_le (p i * (1 / w) - 1 / 2)
  have h2 := Int.lt_floor_add_one (p i * (1 / w) - 1 / 2)
  have e : ∀ x : ℚ, (p i - (x + 1 / 2) * w) * (1 / w) = p i * (1 / w) - 1 / 2 - x := fun x => by field_simp; ring
  rw [e]
  constructor <;> linarith

theorem trilinear_eq (w : ℚ) (f : Index 3 → ℚ) (p : Point 3) :
    trilinear w f p =
      weightComp w p 2 * (weightComp w p 1 * (weightComp w p 0 * f (corner w p 0 0 0) + weight w p 0 * f (corner w p 1 0 0)) +
        weight w p 1 * (weightComp w p 0 * f (corner w p 0 1 0) + weight w p 0 * f (corner w p 1 1 0))) +
      weight w p 2 * (weightComp w p 1 * (weightComp w p 0 * f (corner w p 0 0 1) + weight w p 0 * f (corner w p 1 0 1)) +
        weight w p 1 * (weightComp w p 0 * f (corner w p 0 1 1) + weight w p 0 * f (corner w p 1 1 1))) := by
  unfold trilinear
  dsimp only
  rw [corner_eq w p 0 (by decide), corner_eq w p (0 + 4) (by decide), corner_eq w p (0 + 2) (by decide), corner_eq w p (0 + 2 + 4) (by decide),
    corner_eq w p 1 (by decide), corner_eq w p (1 + 4) (by decide), corner_eq w p (1 + 2) (by decide), corner_eq w p (1 + 2 + 4) (by decide)]
  rfl

/-- The distance to the centre of a corner in units of the cell width. -/
theorem corner_dist {w : ℚ} (hw : 0 < w) (p : Point 3) (i : Fin 3) (x : Int) :
    (p i - ((pointToFloorIndex p (1 / w) i + x : Int) + 1 / 2) * w) / w = weight w p i - x := by
  unfold weight indexToCenterPoint
  push_cast
  field_simp
  ring

theorem tent_zero {a : ℚ} (h0 : 0 ≤ a) (h1 : a < 1) : tent (a - (0 : Int)) = 1 - a := by
  unfold tent
  rw [Int.cast_zero, sub_zero, abs_of_nonneg h0, max_eq_right (by linarith)]

theorem tent_one {a : ℚ} (h0 : 0 ≤ a) (h1 : a < 1) : tent (a - (1 : Int)) = a := by
  unfold tent
  rw [Int.cast_one, abs_of_neg (by linarith), max_eq_right (by linarith)]; ring

theorem between {lo hi a u v : ℚ} (h0 : 0 ≤ a) (h1 : a < 1) (hu : lo ≤ u ∧ u ≤ hi) (hv : a ≠ 0 → lo ≤ v ∧ v ≤ hi) :
    lo ≤ (1 - a) * u + a * v ∧ (1 - a) * u + a * v ≤ hi := by
  by_cases ha : a = 0
  · subst ha; simpa using hu
  · have hv := hv ha
    constructor
    · have e1 := mul_le_mul_of_nonneg_left hu.1 (show 0 ≤ 1 - a by linarith)
      have e2 := mul_le_mul_of_nonneg_left hv.1 h0
      linarith
    · have e1 := mul_le_mul_of_nonneg_left hu.2 (show 0 ≤ 1 - a by linarith)
      have e2 := mul_le_mul_of_nonneg_left hv.2 h0
      linarith

theorem corner_near {w : ℚ} (hw : 0 < w) (p : Point 3) {x y z : Int} (hx : x = 0 ∨ (x = 1 ∧ weight w p 0 ≠ 0)) (hy : y = 0 ∨ (y = 1 ∧ weight w p 1 ≠ 0))
    (hz : z = 0 ∨ (z = 1 ∧ weight w p 2 ≠ 0)) : Near w p (corner w p x y z) := by
  have key : ∀ (i : Fin 3) (x : Int), (x = 0 ∨ (x = 1 ∧ weight w p i ≠ 0)) →
      |p i - ((pointToFloorIndex p (1 / w) i + x : Int) + 1 / 2) * w| < w := by
    intro i x hx
    obtain ⟨h0, h1⟩ := weight_range hw p i
    have e := corner_dist hw p i x
    rw [div_eq_iff (ne_of_gt hw)] at e
    rw [e, abs_mul, abs_of_pos hw]
    have : |weight w p i - x| < 1 := by
      rcases hx with rfl | ⟨rfl, hne⟩
      · rw [Int.cast_zero, sub_zero, abs_of_nonneg h0]; exact h1
      · rw [Int.cast_one, abs_of_neg (by linarith)]
        have : 0 < weight w p i := lt_of_le_of_ne h0 (Ne.symm hne)
        linarith
    calc _ < 1 * w := by apply mul_lt_mul_of_pos_right this hw
      _ = w := one_mul w
  intro i
  fin_cases i
  · exact key 0 x hx
  · exact key 1 y hy
  · exact key 2 z hz

end Interpolate

/-! ## C28 -/

open Interpolate

/-- C28: the interpolation weights are in range, so none of the `DCHECK`s fires. -/
theorem C28_weights_checked (w : ℚ) (hw : 0 < w) (p : Point 3) (i : Fin 3) :
    (0 ≤ weight w p i ∧ weight w p i ≤ 1) ∧ (0 ≤ weightComp w p i ∧ weightComp w p i ≤ 1) := by
  obtain ⟨h0, h1⟩ := weight_range hw p i
  unfold weightComp
  exact ⟨⟨h0, by linarith⟩, by linarith, by linarith⟩

/-- C28: the result lies between the smallest and the largest value among the at most eight cells whose centre is less than a cell width
away along each axis. -/
theorem C28_trilinear_between (w : ℚ) (hw : 0 < w) (f : Index 3 → ℚ) (p : Point 3) (lo hi : ℚ) (h : ∀ j, Near w p j → lo ≤ f j ∧ f j ≤ hi) :
    lo ≤ trilinear w f p ∧ trilinear w f p ≤ hi := by
  rw [trilinear_eq]
  unfold weightComp
  have r := fun i => weight_range hw p i
  have l : ∀ x y z : Int, (x = 0 ∨ (x = 1 ∧ weight w p 0 ≠ 0)) → (y = 0 ∨ (y = 1 ∧ weight w p 1 ≠ 0)) → (z = 0 ∨ (z = 1 ∧ weight w p 2 ≠ 0)) →
      lo ≤ f (corner w p x y z) ∧ f (corner w p x y z) ≤ hi := fun x y z hx hy hz => h _ (corner_near hw p hx hy hz)
  refine between (r 2).1 (r 2).2 (between (r 1).1 (r 1).2 (between (r 0).1 (r 0).2 ?_ ?_) fun h1 => between (r 0).1 (r 0).2 ?_ ?_)
    fun h2 => between (r 1).1 (r 1).2 (between (r 0).1 (r 0).2 ?_ ?_) fun h1 => between (r 0).1 (r 0).2 ?_ ?_
  · exact l _ _ _ (Or.inl rfl) (Or.inl rfl) (Or.inl rfl)
  · exact fun h0 => l _ _ _ (Or.inr ⟨rfl, h0⟩) (Or.inl rfl) (Or.inl rfl)
  · exact l _ _ _ (Or.inl rfl) (Or.inr ⟨rfl, h1⟩) (Or.inl rfl)
  · exact fun h0 => l _ _ _ (Or.inr ⟨rfl, h0⟩) (Or.inr ⟨rfl, h1⟩) (Or.inl rfl)
  · exact l _ _ _ (Or.inl rfl) (Or.inl rfl) (Or.inr ⟨rfl, h2⟩)
  · exact fun h0 => l _ _ _ (Or.inr ⟨rfl, h0⟩) (Or.inl rfl) (Or.inr ⟨rfl, h2⟩)
  · exact l _ _ _ (Or.inl rfl) (Or.inr ⟨rfl, h1⟩) (Or.inr ⟨rfl, h2⟩)
  · exact fun h0 => l _ _ _ (Or.inr ⟨rfl, h0⟩) (Or.inr ⟨rfl, h1⟩) (Or.inr ⟨rfl, h2⟩)

/-- C28: the result is the sum of the values of the eight corner cells weighted by the tent functions of the distances to their
centres, and all other cells have weight 0. The tent functions do not depend on which eight cells are chosen, so the
interpolated value changes continuously from one group of eight cells to the next. -/
theorem C28_trilinear_tent (w : ℚ) (hw : 0 < w) (f : Index 3 → ℚ) (p : Point 3) :
    ∃ m : Index 3,
      trilinear w f p = ∑ x : Fin 2, ∑ y : Fin 2, ∑ z : Fin 2,
        tentWeight w p ![m 0 + x.val, m 1 + y.val, m 2 + z.val] * f ![m 0 + x.val, m 1 + y.val, m 2 + z.val] ∧
      ∀ j, (¬ ∃ x y z : Fin 2, j = ![m 0 + x.val, m 1 + y.val, m 2 + z.val]) → tentWeight w p j = 0 := by
  have r := fun i => weight_range hw p i
  refine ⟨pointToFloorIndex p (1 / w), ?_, ?_⟩
  · rw [trilinear_eq]
    simp only [Fin.sum_univ_two, Fin.val_zero, Fin.val_one, Nat.cast_zero, Nat.cast_one]
    have hc : ∀ x y z : Int, (![pointToFloorIndex p (1 / w) 0 + x, pointToFloorIndex p (1 / w) 1 + y, pointToFloorIndex p (1 / w) 2 + z] : Index 3) =
        corner w p x y z := fun _ _ _ => rfl
    simp only [hc]
    have ht : ∀ x y z : Int, tentWeight w p (corner w p x y z) = tent (weight w p 0 - x) * tent (weight w p 1 - y) * tent (weight w p 2 - z) := by
      intro x y z
      unfold tentWeight
      have e0 : corner w p x y z 0 = pointToFloorIndex p (1 / w) 0 + x := rfl
      have e1 : corner w p x y z 1 = pointToFloorIndex p (1 / w) 1 + y := rfl
      have e2 : corner w p x y z 2 = pointToFloorIndex p (1 / w) 2 + z := rfl
      rw [e0, e1, e2, corner_dist hw, corner_dist hw, corner_dist hw]
    have a0 := tent_zero (r 0).1 (r 0).2
    have a1 := tent_zero (r 1).1 (r 1).2
    have a2 := tent_zero (r 2).1 (r 2).2
    have b0 := tent_one (r 0).1 (r 0).2
    have b1 := tent_one (r 1).1 (r 1).2
    have b2 := tent_one (r 2).1 (r 2).2
    simp only [ht, a0, a1, a2, b0, b1, b2]
    unfold weightComp
    ring
  · intro j hj
    have hout : ∃ i : Fin 3, j i < pointToFloorIndex p (1 / w) i ∨ pointToFloorIndex p (1 / w) i + 1 < j i := by
      by_contra hn
      apply hj
      have hx : ∀ i : Fin 3, ∃ x : Fin 2, j i = pointToFloorIndex p (1 / w) i + x.val := by
        intro i
        have : ¬ (j i < pointToFloorIndex p (1 / w) i ∨ pointToFloorIndex p (1 / w) i + 1 < j i) := fun h => hn ⟨i, h⟩
        refine ⟨⟨(j i - pointToFloorIndex p (1 / w) i).toNat, by omega⟩, ?_⟩
        dsimp only
        omega
      obtain ⟨x, hx0⟩ := hx 0
      obtain ⟨y, hy0⟩ := hx 1
      obtain ⟨z, hz0⟩ := hx 2
      refine ⟨x, y, z, ?_⟩
      funext i
      fin_cases i
      · exact hx0
      · exact hy0
      · exact hz0
    obtain ⟨i, hi⟩ := hout
    have hz : tent ((p i - (j i + 1 / 2) * w) / w) = 0 := by
      have e := corner_dist hw p i (j i - pointToFloorIndex p (1 / w) i)
      rw [show pointToFloorIndex p (1 / w) i + (j i - pointToFloorIndex p (1 / w) i) = j i by ring] at e
      rw [e]
      unfold tent
      refine max_eq_left ?_
      obtain ⟨h0, h1⟩ := r i
      rcases hi with hi | hi
      · have : ((j i - pointToFloorIndex p (1 / w) i : Int) : ℚ) ≤ -1 := by exact_mod_cast (by omega)
        have h2 := le_abs_self (weight w p i - ((j i - pointToFloorIndex p (1 / w) i : Int) : ℚ))
        linarith
      · have : (2 : ℚ) ≤ ((j i - pointToFloorIndex p (1 / w) i : Int) : ℚ) := by exact_mod_cast (by omega)
        have h2 := neg_le_abs (weight w p i - ((j i - pointToFloorIndex p (1 / w) i : Int) : ℚ))
        linarith
    unfold tentWeight
    fin_cases i
    · have h : tent ((p 0 - (j 0 + 1 / 2) * w) / w) = 0 := hz
      rw [h]; ring
    · have h : tent ((p 1 - (j 1 + 1 / 2) * w) / w) = 0 := hz
      rw [h]; ring
    · have h : tent ((p 2 - (j 2 + 1 / 2) * w) / w) = 0 := hz
      rw [h]; ring

/-- C28: at the centre of a cell the result is the value of the cell. -/
theorem C28_trilinear_center (w : ℚ) (hw : 0 < w) (f : Index 3 → ℚ) (j : Index 3) : trilinear w f (fun i => (j i + 1 / 2) * w) = f j := by
  have hnear : ∀ k, Near w (fun i => (j i + 1 / 2) * w) k → k = j := by
    intro k hk
    funext i
    have h := hk i
    have e : ((j i : ℚ) + 1 / 2) * w - ((k i : ℚ) + 1 / 2) * w = ((j i - k i : Int) : ℚ) * w := by push_cast; ring
    rw [e, abs_mul, abs_of_pos hw] at h
    have h1 : |((j i - k i : Int) : ℚ)| < 1 := by
      by_contra hn
      have := mul_le_mul_of_nonneg_right (not_lt.1 hn) hw.le
      linarith
    have h2 : |(j i - k i : Int)| < 1 := by exact_mod_cast h1
    have := abs_lt.1 h2
    omega
  obtain ⟨h1, h2⟩ := C28_trilinear_between w hw f _ (f j) (f j) fun k hk => by rw [hnear k hk]; exact ⟨le_refl _, le_refl _⟩
  exact le_antisymm h2 h1

/-- C28: a map that is affine in the position of the cell centres is reproduced at every point. -/
theorem C28_trilinear_affine (w : ℚ) (hw : 0 < w) (f : Index 3 → ℚ) (c : ℚ) (g : Point 3)
    (hf : ∀ j, f j = c + g 0 * ((j 0 + 1 / 2) * w) + g 1 * ((j 1 + 1 / 2) * w) + g 2 * ((j 2 + 1 / 2) * w)) (p : Point 3) :
    trilinear w f p = c + g 0 * p 0 + g 1 * p 1 + g 2 * p 2 := by
  have hp : ∀ i, p i = (weight w p i + (pointToFloorIndex p (1 / w) i + 1 / 2)) * w := by
    intro i
    have e := corner_dist hw p i 0
    rw [div_eq_iff (ne_of_gt hw), Int.cast_zero, sub_zero] at e
    push_cast at e
    linarith
  rw [trilinear_eq]
  have hcorner : ∀ x y z : Int, f (corner w p x y z) = c + g 0 * ((pointToFloorIndex p (1 / w) 0 + x + 1 / 2) * w) +
      g 1 * ((pointToFloorIndex p (1 / w) 1 + y + 1 / 2) * w) + g 2 * ((pointToFloorIndex p (1 / w) 2 + z + 1 / 2) * w) := by
    intro x y z
    rw [hf]
    have e0 : corner w p x y z 0 = pointToFloorIndex p (1 / w) 0 + x := rfl
    have e1 : corner w p x y z 1 = pointToFloorIndex p (1 / w) 1 + y := rfl
    have e2 : corner w p x y z 2 = pointToFloorIndex p (1 / w) 2 + z := rfl
    rw [e0, e1, e2]
    push_cast
    ring
  simp only [hcorner]
  unfold weightComp
  generalize pointToFloorIndex p (1 / w) = m at hp
  have h0 := hp 0
  have h1 := hp 1
  have h2 := hp 2
  generalize weight w p = a at h0 h1 h2
  rw [h0, h1, h2]
  push_cast
  ring

/-- C28: the nearest neighbour query returns the value of a cell that contains the point, namely the cell itself for points in its
interior. -/
theorem C28_nearest (w : ℚ) (hw : 0 < w) (f : Index 3 → ℚ) (p : Point 3) :
    (∃ j, InClosedCell j w p ∧ nearestNeighbor w f p = f j) ∧ ∀ j, InOpenCell j w p → nearestNeighbor w f p = f j := by
  refine ⟨⟨_, C07_nearest_contains p w hw, rfl⟩, fun j hj => ?_⟩
  unfold nearestNeighbor
  rw [C07_interior p w hw j hj]

/-- A point with negative coordinates between cell centres; the eight cells have different values. -/
example : trilinear (1 / 2) (fun j => j 0 + 10 * j 1 + 100 * j 2) (fun _ => -1 / 8) = -333 / 4 := by
  have := C28_trilinear_affine (1 / 2) (by norm_num) (fun j => j 0 + 10 * j 1 + 100 * j 2) (-111 / 2) ![2, 20, 200] (fun j => by
    simp; ring) (fun _ => -1 / 8)
  rw [this]
  simp
  norm_num

/-- Interpolation between a free and an occupied cell. -/
example : 0 ≤ trilinear 1 (fun j => if j 0 = 0 then 0 else 3) ![1, 1 / 2, 1 / 2] ∧
    trilinear 1 (fun j => if j 0 = 0 then 0 else 3) ![1, 1 / 2, 1 / 2] ≤ 3 ∧
    trilinear 1 (fun j => if j 0 = 0 then 0 else 3) ![1, 1 / 2, 1 / 2] = 3 / 2 := by
  refine ⟨?_, ?_, by decide +kernel⟩
  · exact (C28_trilinear_between 1 one_pos _ _ 0 3 fun j _ => by split <;> norm_num).1
  · exact (C28_trilinear_between 1 one_pos _ _ 0 3 fun j _ => by split <;> norm_num).2

end Wavemap
