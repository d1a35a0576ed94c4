import Mathlib.Algebra.Order.BigOperators.Group.Finset
import Mathlib.Algebra.Order.Field.Rat
import Mathlib.Algebra.Order.Field.Basic
import Mathlib.Data.Fintype.Basic
import Mathlib.Data.Fin.VecNotation
import Mathlib.Tactic.Linarith
import Mathlib.Tactic.NormNum
import Mathlib.Tactic.Ring
import Batteries.Data.Nat.Lemmas
import Verif.Model.Aabb
/-!
# C47: axis-aligned bounding boxes

Points of a box are described by `InAabb`, distances by `sqDist`, both independent of the model.
-/
namespace Wavemap
variable {d : Nat}

/-- Specification: `p` lies in the closed box `[lo, hi]`. -/
def InAabb (lo hi p : Point d) : Prop := ∀ i, lo i ≤ p i ∧ p i ≤ hi i

/-- Specification: squared Euclidean distance. -/
def sqDist (p q : Point d) : ℚ := ∑ i, (p i - q i) ^ 2

/-- The box is not inverted. -/
def Aabb.Proper (a : Aabb d) : Prop := ∀ i, a.min i ≤ a.max i

/-- **C47** `containsPoint` decides membership in the closed box. -/
theorem C47_contains_iff (a : Aabb d) (p : Point d) : a.containsPoint p = true ↔ InAabb a.min a.max p := by
  simp [Aabb.containsPoint, InAabb]

/-- **C47** `includePoint` gives the smallest box containing the old box and the point. -/
theorem C47_include_smallest (a : Aabb d) (p : Point d) (h : a.Proper) :
    (∀ q, InAabb a.min a.max q → InAabb (a.includePoint p).min (a.includePoint p).max q) ∧
    InAabb (a.includePoint p).min (a.includePoint p).max p ∧
    ∀ lo hi : Point d, (∀ q, InAabb a.min a.max q → InAabb lo hi q) → InAabb lo hi p →
      ∀ q, InAabb (a.includePoint p).min (a.includePoint p).max q → InAabb lo hi q := by
  refine ⟨fun q hq i => ⟨?_, ?_⟩, fun i => ⟨?_, ?_⟩, fun lo hi hall hp q hq i => ?_⟩
  · exact le_trans (min_le_left _ _) (hq i).1
  · exact le_trans (hq i).2 (le_max_left _ _)
  · exact min_le_right _ _
  · exact le_max_right _ _
  · have h1 := (hall a.min (fun j => ⟨le_refl _, h j⟩) i).1
    have h2 := (hall a.max (fun j => ⟨h j, le_refl _⟩) i).2
    exact ⟨le_trans (le_min h1 (hp i).1) (hq i).1, le_trans (hq i).2 (max_le h2 (hp i).2)⟩

/-- **C47** A default-constructed box that includes a (representable) point is exactly that point; including a list of
points gives the smallest box around them. -/
theorem C47_include_from_empty (big : ℚ) (p : Point d) (hp : ∀ i, |p i| ≤ big) :
    (Aabb.empty big).includePoint p = ⟨p, p⟩ := by
  unfold Aabb.empty Aabb.includePoint
  congr 1
  · funext i; exact min_eq_right (le_trans (le_abs_self _) (hp i))
  · funext i; exact max_eq_right (neg_le_of_abs_le (hp i))

/-- **C47** The closest point lies in the box and no point of the box is closer. -/
theorem C47_closest (a : Aabb d) (h : a.Proper) (p : Point d) :
    InAabb a.min a.max (a.closestPointTo p) ∧
    (∀ q, InAabb a.min a.max q → sqDist p (a.closestPointTo p) ≤ sqDist p q) ∧
    a.minSquaredDistanceTo p = sqDist p (a.closestPointTo p) := by
  refine ⟨fun i => ⟨?_, ?_⟩, fun q hq => ?_, ?_⟩
  · exact le_min (le_max_right _ _) (h i)
  · exact min_le_right _ _
  · refine Finset.sum_le_sum fun i _ => ?_
    obtain ⟨h1, h2⟩ := hq i
    unfold Aabb.closestPointTo
    rw [sq_le_sq]
    rcases le_total (p i) (a.min i) with h3 | h3
    · rw [max_eq_right h3, min_eq_left (h i), abs_of_nonpos (by linarith), abs_of_nonpos (by linarith)]; linarith
    · rw [max_eq_left h3]
      rcases le_total (p i) (a.max i) with h4 | h4
      · rw [min_eq_left h4]; simp
      · rw [min_eq_right h4, abs_of_nonneg (by linarith), abs_of_nonneg (by linarith)]; linarith
  · unfold Aabb.minSquaredDistanceTo sqNorm sqDist Aabb.minOffsetTo
    exact Finset.sum_congr rfl fun i _ => (sq _).symm

/-- **C47** The furthest point is a corner and no point of the box is further away. -/
theorem C47_furthest (a : Aabb d) (h : a.Proper) (p : Point d) :
    (∀ i, a.furthestPointFrom p i = a.min i ∨ a.furthestPointFrom p i = a.max i) ∧
    InAabb a.min a.max (a.furthestPointFrom p) ∧
    (∀ q, InAabb a.min a.max q → sqDist p q ≤ sqDist p (a.furthestPointFrom p)) ∧
    a.maxSquaredDistanceTo p = sqDist p (a.furthestPointFrom p) := by
  refine ⟨fun i => ?_, fun i => ?_, fun q hq => ?_, ?_⟩
  · unfold Aabb.furthestPointFrom; split <;> simp
  · unfold Aabb.furthestPointFrom; split
    · exact ⟨le_refl _, h i⟩
    · exact ⟨h i, le_refl _⟩
  · refine Finset.sum_le_sum fun i _ => ?_
    obtain ⟨h1, h2⟩ := hq i
    unfold Aabb.furthestPointFrom
    rw [sq_le_sq]
    split
    · rw [abs_of_nonneg (a := p i - a.min i) (by linarith), abs_le]; constructor <;> linarith
    · rw [abs_of_nonpos (a := p i - a.max i) (by linarith), abs_le]; constructor <;> linarith
  · unfold Aabb.maxSquaredDistanceTo sqNorm sqDist Aabb.maxOffsetTo
    exact Finset.sum_congr rfl fun i _ => (sq _).symm

/-- **C47** The smallest distance between two boxes is a lower bound for all pairs of their points, and attained. -/
theorem C47_box_min_distance (a b : Aabb d) (ha : a.Proper) (hb : b.Proper) :
    (∀ p q, InAabb a.min a.max p → InAabb b.min b.max q → a.minSquaredDistanceToBox b ≤ sqDist p q) ∧
    ∃ p q, InAabb a.min a.max p ∧ InAabb b.min b.max q ∧ sqDist p q = a.minSquaredDistanceToBox b := by
  constructor
  · intro p q hp hq
    unfold Aabb.minSquaredDistanceToBox sqNorm sqDist
    refine Finset.sum_le_sum fun i _ => ?_
    obtain ⟨h1, h2⟩ := hp i
    obtain ⟨h3, h4⟩ := hq i
    rw [← sq, sq_le_sq (b := p i - q i)]
    have h0 : (0 : ℚ) ≤ a.minOffsetToBox b i := le_max_right _ _
    rw [abs_of_nonneg h0]
    unfold Aabb.minOffsetToBox
    refine max_le ?_ (abs_nonneg (p i - q i))
    rcases le_total (a.min i) (b.min i) with h5 | h5 <;> rcases le_total (a.max i) (b.max i) with h6 | h6 <;>
      simp only [max_eq_left, max_eq_right, min_eq_left, min_eq_right, h5, h6] <;>
      first
        | exact le_trans (by linarith) (le_abs_self (p i - q i))
        | exact le_trans (by linarith) (neg_le_abs (p i - q i))
        | exact le_trans (by linarith [ha i, hb i]) (abs_nonneg (p i - q i))
  · refine ⟨fun i => if a.max i ≤ b.min i then a.max i else if b.max i ≤ a.min i then a.min i
        else Max.max (a.min i) (b.min i),
      fun i => if a.max i ≤ b.min i then b.min i else if b.max i ≤ a.min i then b.max i
        else Max.max (a.min i) (b.min i), fun i => ?_, fun i => ?_, ?_⟩
    · have := ha i; have := hb i
      dsimp only
      split
      · constructor <;> linarith
      · split
        · constructor <;> linarith
        · exact ⟨le_max_left _ _, max_le (ha i) (by linarith)⟩
    · have := ha i; have := hb i
      dsimp only
      split
      · constructor <;> linarith
      · split
        · constructor <;> linarith
        · exact ⟨le_max_right _ _, max_le (by linarith) (hb i)⟩
    · refine Finset.sum_congr rfl fun i _ => ?_
      have := ha i; have := hb i
      unfold Aabb.minOffsetToBox
      by_cases h1 : a.max i ≤ b.min i
      · simp only [h1, if_true]
        rw [max_eq_right (a := a.min i) (by linarith), min_eq_left (a := a.max i) (by linarith),
          max_eq_left (by linarith)]; ring
      · simp only [h1, if_false]
        by_cases h2 : b.max i ≤ a.min i
        · simp only [h2, if_true]
          rw [max_eq_left (a := a.min i) (by linarith), min_eq_right (a := a.max i) (by linarith),
            max_eq_left (by linarith)]; ring
        · simp only [h2, if_false]
          rw [max_eq_right (a := _ - _)]
          · ring
          · have : Max.max (a.min i) (b.min i) ≤ Min.min (a.max i) (b.max i) :=
              max_le (le_min (ha i) (by linarith)) (le_min (by linarith) (hb i))
            linarith

/-- **C47** The largest distance between two boxes is an upper bound for all pairs of their points, and attained. -/
theorem C47_box_max_distance (a b : Aabb d) (ha : a.Proper) (hb : b.Proper) :
    (∀ p q, InAabb a.min a.max p → InAabb b.min b.max q → sqDist p q ≤ a.maxSquaredDistanceToBox b) ∧
    ∃ p q, InAabb a.min a.max p ∧ InAabb b.min b.max q ∧ sqDist p q = a.maxSquaredDistanceToBox b := by
  constructor
  · intro p q hp hq
    unfold Aabb.maxSquaredDistanceToBox sqNorm sqDist
    refine Finset.sum_le_sum fun i _ => ?_
    obtain ⟨h1, h2⟩ := hp i
    obtain ⟨h3, h4⟩ := hq i
    rw [← sq, sq_le_sq]
    unfold Aabb.maxOffsetToBox
    dsimp only
    split
    · next h =>
      rw [abs_le]
      constructor
      · have := neg_le_abs (a.min i - b.max i); linarith
      · have := le_abs_self (a.max i - b.min i); linarith
    · next h =>
      push Not at h
      rw [abs_le]
      constructor
      · have := neg_le_abs (a.min i - b.max i); linarith
      · have := le_abs_self (a.max i - b.min i); linarith
  · refine ⟨fun i => if |a.max i - b.min i| < |a.min i - b.max i| then a.min i else a.max i,
      fun i => if |a.max i - b.min i| < |a.min i - b.max i| then b.max i else b.min i,
      fun i => ?_, fun i => ?_, ?_⟩
    · dsimp only; split
      · exact ⟨le_refl _, ha i⟩
      · exact ⟨ha i, le_refl _⟩
    · dsimp only; split
      · exact ⟨hb i, le_refl _⟩
      · exact ⟨le_refl _, hb i⟩
    · refine Finset.sum_congr rfl fun i _ => ?_
      unfold Aabb.maxOffsetToBox
      dsimp only
      split <;> ring

/-- **C47** The `2^dim` corner points are exactly the points all of whose coordinates are extreme. -/
theorem C47_corners (a : Aabb d) (p : Point d) :
    (∃ c < 2 ^ d, a.cornerPoint c = p) ↔ ∀ i, p i = a.min i ∨ p i = a.max i := by
  constructor
  · rintro ⟨c, _, rfl⟩ i
    unfold Aabb.cornerPoint; split <;> simp
  · intro h
    refine ⟨Nat.ofBits fun i : Fin d => decide (p i ≠ a.min i), Nat.ofBits_lt_two_pow _, ?_⟩
    funext i
    unfold Aabb.cornerPoint
    rw [Nat.testBit_ofBits_lt _ _ i.2]
    rcases h i with h | h
    · simp [h]
    · by_cases hm : p i = a.min i
      · simp [hm]
      · simpa [h] using fun h' => h'.symm

/-- Non-vacuity: a proper box in the plane, a point outside. -/
example : (Aabb.mk (d := 2) ![0, 0] ![2, 1]).Proper ∧
    (Aabb.mk (d := 2) ![0, 0] ![2, 1]).closestPointTo ![3, 1/2] = ![2, 1/2] ∧
    (Aabb.mk (d := 2) ![0, 0] ![2, 1]).furthestPointFrom ![3, 1/2] = ![0, 1] ∧
    (Aabb.mk (d := 2) ![0, 0] ![2, 1]).minSquaredDistanceTo ![3, 1/2] = 1 := by
  refine ⟨?_, ?_, ?_, ?_⟩
  · intro i; revert i; decide +kernel
  · funext i; revert i; decide +kernel
  · funext i; revert i; decide +kernel
  · decide +kernel

end Wavemap
