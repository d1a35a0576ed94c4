import Verif.Model.Conversions
import Verif.Props.NodeIndex
import Mathlib.Tactic.FieldSimp
import Mathlib.Tactic.Positivity
/-!
# C07 – point-to-cell conversion
-/
namespace Wavemap
variable {d : Nat}

/-- The closed cell of width `w` with a given index. -/
def InClosedCell (index : Index d) (w : ℚ) (p : Point d) : Prop :=
  ∀ i, (index i : ℚ) * w ≤ p i ∧ p i ≤ ((index i : ℚ) + 1) * w

/-- The open cell of width `w` with a given index. -/
def InOpenCell (index : Index d) (w : ℚ) (p : Point d) : Prop :=
  ∀ i, (index i : ℚ) * w < p i ∧ p i < ((index i : ℚ) + 1) * w

/-- Exact tie rule of the nearest-cell conversion: a coordinate on a cell boundary `k` goes to the
upper cell if `k ≥ 1` and to the lower cell if `k ≤ 0` (round half away from zero). -/
theorem nearest_iff (x : ℚ) (k : Int) :
    cppRound (x - 1 / 2) = k ↔
      (1 / 2 ≤ x ∧ (k : ℚ) ≤ x ∧ x < k + 1) ∨ (x < 1 / 2 ∧ (k : ℚ) < x ∧ x ≤ k + 1) := by
  unfold cppRound
  split
  · rename_i h
    rw [Int.floor_eq_iff]
    constructor
    · rintro ⟨h1, h2⟩; left; refine ⟨by linarith, by linarith, by linarith⟩
    · rintro (⟨h1, h2, h3⟩ | ⟨h1, h2, h3⟩)
      · constructor <;> linarith
      · linarith
  · rename_i h
    rw [Int.ceil_eq_iff]
    constructor
    · rintro ⟨h1, h2⟩; right; refine ⟨by linarith, by linarith, by linarith⟩
    · rintro (⟨h1, h2, h3⟩ | ⟨h1, h2, h3⟩)
      · linarith
      · constructor <;> linarith

theorem scale_le (a x w : ℚ) (hw : 0 < w) : a ≤ x * (1 / w) ↔ a * w ≤ x := by
  rw [mul_one_div, le_div_iff₀ hw]

theorem scale_lt (a x w : ℚ) (hw : 0 < w) : a < x * (1 / w) ↔ a * w < x := by
  rw [mul_one_div, lt_div_iff₀ hw]

theorem scale_ge (a x w : ℚ) (hw : 0 < w) : x * (1 / w) ≤ a ↔ x ≤ a * w := by
  rw [mul_one_div, div_le_iff₀ hw]

theorem scale_gt (a x w : ℚ) (hw : 0 < w) : x * (1 / w) < a ↔ x < a * w := by
  rw [mul_one_div, div_lt_iff₀ hw]

/-- The cell assigned to a point contains it. -/
theorem C07_nearest_contains (p : Point d) (w : ℚ) (hw : 0 < w) :
    InClosedCell (pointToNearestIndex p (1 / w)) w p := by
  intro i
  have := (nearest_iff (p i * (1 / w)) (pointToNearestIndex p (1 / w) i)).mp rfl
  rw [← scale_le _ _ _ hw, ← scale_ge _ _ _ hw]
  rcases this with ⟨_, h2, h3⟩ | ⟨_, h2, h3⟩
  · exact ⟨h2, h3.le⟩
  · exact ⟨h2.le, h3⟩

/-- A point strictly inside a cell is assigned to that cell. -/
theorem C07_interior (p : Point d) (w : ℚ) (hw : 0 < w) (index : Index d)
    (h : InOpenCell index w p) : pointToNearestIndex p (1 / w) = index := by
  funext i
  obtain ⟨h1, h2⟩ := h i
  rw [← scale_lt _ _ _ hw] at h1
  rw [← scale_gt _ _ _ hw] at h2
  apply (nearest_iff _ _).mpr
  rcases le_or_gt (1 / 2) (p i * (1 / w)) with hc | hc
  · left; exact ⟨hc, h1.le, h2⟩
  · right; exact ⟨hc, h1, h2.le⟩

/-- The centre of a cell is assigned to that cell. -/
theorem C07_center_roundtrip (index : Index d) (w : ℚ) (hw : 0 < w) :
    pointToNearestIndex (indexToCenterPoint index w) (1 / w) = index := by
  apply C07_interior _ _ hw
  intro i
  simp only [indexToCenterPoint]
  constructor <;> nlinarith

/-- The corner and centre points of a cell are consistent with the closed cell. -/
theorem C07_corners (index : Index d) (w : ℚ) (p : Point d) :
    InClosedCell index w p ↔
      ∀ i, indexToMinCorner index w i ≤ p i ∧ p i ≤ indexToMaxCorner index w i := Iff.rfl

/-- Floor and ceil variants bracket the point between cell centres, bracket the nearest variant, and
differ by at most one. -/
theorem C07_floor_ceil (p : Point d) (w : ℚ) (hw : 0 < w) (i : Fin d) :
    indexToCenterPoint (pointToFloorIndex p (1 / w)) w i ≤ p i ∧
    p i ≤ indexToCenterPoint (pointToCeilIndex p (1 / w)) w i ∧
    pointToFloorIndex p (1 / w) i ≤ pointToNearestIndex p (1 / w) i ∧
    pointToNearestIndex p (1 / w) i ≤ pointToCeilIndex p (1 / w) i ∧
    pointToCeilIndex p (1 / w) i ≤ pointToFloorIndex p (1 / w) i + 1 := by
  have hf := Int.floor_le (p i * (1 / w) - 1 / 2)
  have hf' := Int.lt_floor_add_one (p i * (1 / w) - 1 / 2)
  have hc := Int.le_ceil (p i * (1 / w) - 1 / 2)
  have hn := (nearest_iff (p i * (1 / w)) (pointToNearestIndex p (1 / w) i)).mp rfl
  refine ⟨?_, ?_, ?_, ?_, ?_⟩
  · simp only [indexToCenterPoint, pointToFloorIndex, scaledPointToFloorIndex]
    rw [← scale_le _ _ _ hw]; linarith
  · simp only [indexToCenterPoint, pointToCeilIndex, scaledPointToCeilIndex]
    rw [← scale_ge _ _ _ hw]; linarith
  · simp only [pointToFloorIndex, scaledPointToFloorIndex]
    have : ((⌊p i * (1 / w) - 1 / 2⌋ : Int) : ℚ) < (pointToNearestIndex p (1 / w) i : Int) + 1 := by
      rcases hn with ⟨_, _, h⟩ | ⟨_, _, h⟩ <;> linarith
    exact_mod_cast Int.lt_add_one_iff.mp (by exact_mod_cast this)
  · simp only [pointToCeilIndex, scaledPointToCeilIndex]
    have : ((pointToNearestIndex p (1 / w) i : Int) : ℚ) < ((⌈p i * (1 / w) - 1 / 2⌉ : Int) : ℚ) + 1 := by
      rcases hn with ⟨_, h, _⟩ | ⟨_, h, _⟩ <;> linarith
    exact_mod_cast Int.lt_add_one_iff.mp (by exact_mod_cast this)
  · simp only [pointToFloorIndex, scaledPointToFloorIndex, pointToCeilIndex, scaledPointToCeilIndex]
    exact Int.ceil_le_floor_add_one _

/-- The node of a point at any height is the ancestor of the point's finest cell, for every point
(also on cell boundaries). -/
theorem C07_node_is_ancestor_of_cell (p : Point d) (w : ℚ) (hw : 0 < w) (h : Nat) :
    pointToNodeIndex p w h = indexAndHeightToNodeIndex (pointToNearestIndex p (1 / w)) h := by
  ext i
  · rfl
  · simp only [pointToNodeIndex, indexAndHeightToNodeIndex]
    symm
    rw [divExp2Floor_iff]
    have hW : 0 < heightToCellWidth w h := by
      unfold heightToCellWidth; rw [exp2_eq]; positivity
    have hfine := (nearest_iff (p i * (1 / w)) (pointToNearestIndex p (1 / w) i)).mp rfl
    have hcoarse := (nearest_iff (p i * (1 / heightToCellWidth w h))
      (pointToNearestIndex p (1 / heightToCellWidth w h) i)).mp rfl
    have hx : p i * (1 / w) = p i * (1 / heightToCellWidth w h) * 2 ^ h := by
      unfold heightToCellWidth; rw [exp2_eq]; push_cast
      have : (2 : ℚ) ^ h ≠ 0 := by positivity
      field_simp
    generalize pointToNearestIndex p (1 / w) i = k at *
    generalize pointToNearestIndex p (1 / heightToCellWidth w h) i = K at *
    generalize p i * (1 / heightToCellWidth w h) = X at *
    generalize p i * (1 / w) = x at *
    have hP : (1 : ℚ) ≤ 2 ^ h := one_le_pow₀ (by norm_num)
    -- suffices to compare as rationals
    suffices hs : ((K * 2 ^ h : Int) : ℚ) < k + 1 ∧ ((k : Int) : ℚ) < ((K + 1) * 2 ^ h : Int) by
      obtain ⟨h1, h2⟩ := hs
      constructor
      · have : (K * 2 ^ h : Int) < k + 1 := by exact_mod_cast h1
        omega
      · exact_mod_cast h2
    push_cast
    subst hx
    rcases hcoarse with ⟨a1, a2, a3⟩ | ⟨a1, a2, a3⟩
    · have e1 : (K : ℚ) * 2 ^ h ≤ X * 2 ^ h := by nlinarith
      have e2 : X * 2 ^ h < (K + 1) * 2 ^ h := by nlinarith
      have e3 : 1 / 2 ≤ X * 2 ^ h := by nlinarith
      rcases hfine with ⟨b1, b2, b3⟩ | ⟨b1, b2, b3⟩
      · constructor <;> linarith
      · linarith
    · have e1 : (K : ℚ) * 2 ^ h < X * 2 ^ h := by nlinarith
      have e2 : X * 2 ^ h ≤ (K + 1) * 2 ^ h := by nlinarith
      rcases hfine with ⟨b1, b2, b3⟩ | ⟨b1, b2, b3⟩
      · refine ⟨by linarith, ?_⟩
        -- x ≥ 1/2 while X < 1/2: K + 1 ≤ 0 would give x ≤ 0; so the bound is strict
        rcases lt_or_eq_of_le e2 with hlt | heq
        · linarith
        · exfalso
          have hX : X = K + 1 := by
            have : (2 : ℚ) ^ h ≠ 0 := by positivity
            exact mul_right_cancel₀ this heq
          have hXpos : 0 < X := by
            by_contra hneg
            have : X * 2 ^ h ≤ 0 := mul_nonpos_of_nonpos_of_nonneg (not_lt.mp hneg) (by linarith)
            linarith
          have hK : (0 : ℚ) < ((K + 1 : Int) : ℚ) := by push_cast; linarith
          have hK' : (1 : ℚ) ≤ ((K + 1 : Int) : ℚ) := by
            have : (0 : Int) < K + 1 := by exact_mod_cast hK
            exact_mod_cast this
          push_cast at hK'
          linarith
      · constructor <;> linarith

/-- Centres of nodes are assigned to the node, at every height. -/
theorem C07_node_center_roundtrip (n : NdtreeIndex d) (hn : 0 ≤ n.height) (w : ℚ) (hw : 0 < w) :
    pointToNodeIndex (nodeIndexToCenterPoint n w) w n.height.toNat = n := by
  have hW : 0 < heightToCellWidth w n.height.toNat := by
    unfold heightToCellWidth; rw [exp2_eq]; positivity
  have := C07_center_roundtrip n.position _ hW
  ext i
  · simp [pointToNodeIndex, hn]
  · exact congrFun this i

/-- Converting an index to a finer or equal-width grid's parent resolution: the new cell contains the
centre of the old one. -/
theorem C07_new_resolution (index : Index d) (srcW dstW : ℚ) (hd : 0 < dstW) :
    InClosedCell (indexToNewResolution index srcW dstW) dstW (indexToCenterPoint index srcW) :=
  C07_nearest_contains _ _ hd

/-- A boundary point below zero goes to the lower cell, one above zero to the upper cell. -/
example : pointToNearestIndex (fun _ : Fin 1 => (0 : ℚ)) (1 / (1 / 10)) 0 = -1 ∧
    pointToNearestIndex (fun _ : Fin 1 => (1 / 10 : ℚ)) (1 / (1 / 10)) 0 = 1 := by
  constructor
  · exact (nearest_iff _ _).mpr (by norm_num)
  · exact (nearest_iff _ _).mpr (by norm_num)

example : InOpenCell (fun _ : Fin 1 => (3 : Int)) (1 / 10) (fun _ => 7 / 20) := by
  intro i; norm_num

end Wavemap
