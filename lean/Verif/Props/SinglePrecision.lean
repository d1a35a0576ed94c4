import Verif.Model.SinglePrecision
import Verif.Lemmas.Float32
import Verif.Props.Points
/-!
# C79: points and cells in single precision
-/
namespace Wavemap
variable {d : Nat}

/-- Specification: the error that rounding can cause when the cell of a point is computed, in units of the cell width, for a point `x` cell widths from the origin. -/
def cellError (x : ℚ) : ℚ := (|x| + 1) / 2 ^ 22

theorem cppRound_eq {r : ℚ} {i : Int} (h : |r - i| < 1 / 2) : cppRound r = i := by
  rw [abs_lt] at h
  unfold cppRound
  split
  · rw [Int.floor_eq_iff]; constructor <;> linarith
  · rw [Int.ceil_eq_iff]; constructor <;> linarith

theorem cppRound_err (r : ℚ) : |(cppRound r : ℚ) - r| ≤ 1 / 2 := by
  unfold cppRound
  rw [abs_le]
  split
  · have h1 := Int.floor_le (r + 1 / 2)
    have h2 := Int.lt_floor_add_one (r + 1 / 2)
    constructor <;> linarith
  · have h1 := Int.le_ceil (r - 1 / 2)
    have h2 := Int.ceil_lt_add_one (r - 1 / 2)
    constructor <;> linarith

/-- Three rounded multiplications. -/
theorem three_factors {a b c u : ℚ} (hu : 0 ≤ u) (ha : |a| ≤ u) (hb : |b| ≤ u) (hc : |c| ≤ u) :
    |(1 + a) * (1 + b) * (1 + c) - 1| ≤ 3 * u + 3 * u ^ 2 + u ^ 3 := by
  have e : (1 + a) * (1 + b) * (1 + c) - 1 = a + b + c + (a * b + a * c + b * c) + a * b * c := by ring
  have hab : |a * b| ≤ u ^ 2 := by rw [abs_mul, pow_two]; exact mul_le_mul ha hb (abs_nonneg _) hu
  have hac : |a * c| ≤ u ^ 2 := by rw [abs_mul, pow_two]; exact mul_le_mul ha hc (abs_nonneg _) hu
  have hbc : |b * c| ≤ u ^ 2 := by rw [abs_mul, pow_two]; exact mul_le_mul hb hc (abs_nonneg _) hu
  have habc : |a * b * c| ≤ u ^ 3 := by
    rw [abs_mul, pow_succ]; exact mul_le_mul hab hc (abs_nonneg _) (by positivity)
  rw [e]
  rw [abs_le] at ha hb hc hab hac hbc habc ⊢
  constructor <;> linarith [ha.1, ha.2]

theorem two_factors {a b u : ℚ} (hu : 0 ≤ u) (ha : |a| ≤ u) (hb : |b| ≤ u) : |(1 + a) * (1 + b) - 1| ≤ 2 * u + u ^ 2 := by
  have e : (1 + a) * (1 + b) - 1 = a + b + a * b := by ring
  have hab : |a * b| ≤ u ^ 2 := by rw [abs_mul, pow_two]; exact mul_le_mul ha hb (abs_nonneg _) hu
  rw [e]
  rw [abs_le] at ha hb hab ⊢
  constructor <;> linarith [ha.1, ha.2]

theorem isFloat_half {i : Int} (h : |i| < 2 ^ 23) : IsFloat ((i : ℚ) + 1 / 2) := by
  refine ⟨2 * i + 1, -1, ?_, by rw [zpow_neg_one]; push_cast; ring⟩
  rw [abs_lt] at h ⊢
  constructor <;> omega

theorem fl_int {i : Int} (h : |i| < 2 ^ 24) : fl (i : ℚ) = i := fl_of_isFloat (isFloat_int h)

/-- C79 (round trip): up to two million cells from the origin, the centre of a cell is a point of that cell, for every cell width. -/
theorem C79_center_roundtrip (index : Index d) (w : ℚ) (hw : 0 < w) (h : ∀ i, |index i| ≤ 2 ^ 21 - 4) :
    Single.pointToNearestIndex (Single.indexToCenterPoint index w) (fl (1 / w)) = index := by
  funext i
  have hi := h i
  simp only [Single.pointToNearestIndex, Single.scaledPointToNearestIndex, Single.indexToCenterPoint]
  generalize index i = k at hi
  rw [fl_int (by omega : |k| < 2 ^ 24), fl_of_isFloat (isFloat_half (by omega : |k| < 2 ^ 23))]
  obtain ⟨δ1, h1, e1⟩ := fl_factor (((k : ℚ) + 1 / 2) * w)
  obtain ⟨δ2, h2, e2⟩ := fl_factor (1 / w)
  obtain ⟨δ3, h3, e3⟩ := fl_factor (fl (((k : ℚ) + 1 / 2) * w) * fl (1 / w))
  have e : fl (fl (((k : ℚ) + 1 / 2) * w) * fl (1 / w)) = ((k : ℚ) + 1 / 2) * ((1 + δ1) * (1 + δ2) * (1 + δ3)) := by
    rw [e3, e1, e2]; field_simp
  have hθ := three_factors (by norm_num : (0 : ℚ) ≤ 1 / 2 ^ 24) h1 h2 h3
  generalize (1 + δ1) * (1 + δ2) * (1 + δ3) = f at e hθ
  rw [e]
  obtain ⟨δ4, h4, e4⟩ := fl_factor (((k : ℚ) + 1 / 2) * f - 1 / 2)
  apply cppRound_eq
  rw [e4]
  have hk : |(k : ℚ)| ≤ 2 ^ 21 - 4 := by exact_mod_cast hi
  have hs : |(k : ℚ) + 1 / 2| ≤ 2 ^ 21 - 7 / 2 := by
    rw [abs_le] at hk ⊢; constructor <;> linarith
  have a1 : |((k : ℚ) + 1 / 2) * (f - 1)| ≤ (2 ^ 21 - 7 / 2) * (3 * (1 / 2 ^ 24) + 3 * (1 / 2 ^ 24) ^ 2 + (1 / 2 ^ 24) ^ 3) := by
    rw [abs_mul]; exact mul_le_mul hs hθ (abs_nonneg _) (by norm_num)
  have e5 : ((k : ℚ) + 1 / 2) * f - 1 / 2 = k + ((k : ℚ) + 1 / 2) * (f - 1) := by ring
  have a2 : |((k : ℚ) + 1 / 2) * f - 1 / 2| ≤ 2 ^ 21 - 3 := by
    rw [e5]
    refine (abs_add_le _ _).trans ((add_le_add hk a1).trans ?_)
    norm_num
  have a3 : |(((k : ℚ) + 1 / 2) * f - 1 / 2) * δ4| ≤ (2 ^ 21 - 3) * (1 / 2 ^ 24) := by
    rw [abs_mul]; exact mul_le_mul a2 h4 (abs_nonneg _) (by norm_num)
  have e6 : (((k : ℚ) + 1 / 2) * f - 1 / 2) * (1 + δ4) - k = ((k : ℚ) + 1 / 2) * (f - 1) + (((k : ℚ) + 1 / 2) * f - 1 / 2) * δ4 := by ring
  rw [e6]
  refine lt_of_le_of_lt ((abs_add_le _ _).trans (add_le_add a1 a3)) ?_
  norm_num

theorem isFloat_pow (h : Nat) : IsFloat ((2 ^ h : Nat) : ℚ) := ⟨1, h, by norm_num, by push_cast; rw [zpow_natCast]; ring⟩

theorem heightToCellWidth_single (w : ℚ) (hw : IsFloat w) (h : Nat) : Single.heightToCellWidth w h = heightToCellWidth w h := by
  unfold Single.heightToCellWidth heightToCellWidth
  rw [exp2_eq, fl_of_isFloat (isFloat_pow h)]
  have := hw.mul_zpow h
  rw [zpow_natCast] at this
  exact fl_of_isFloat (by push_cast; exact this)

/-- C79 (round trip of nodes): the same for the nodes of a tree, of every height. The width of the smallest cells must be a single precision number. -/
theorem C79_node_roundtrip (n : NdtreeIndex d) (hn : 0 ≤ n.height) (w : ℚ) (hw : 0 < w) (hf : IsFloat w) (h : ∀ i, |n.position i| ≤ 2 ^ 21 - 4) :
    Single.pointToNodeIndex (Single.nodeIndexToCenterPoint n w) w n.height.toNat = n := by
  have hpos : 0 < Single.heightToCellWidth w n.height.toNat := by
    rw [heightToCellWidth_single w hf]; unfold heightToCellWidth; rw [exp2_eq]; positivity
  have := C79_center_roundtrip n.position _ hpos h
  ext i
  · simp [Single.pointToNodeIndex, hn]
  · exact congrFun this i

/-- The rounded position of a point. -/
theorem scaled_err (p w : ℚ) (hw : 0 < w) : |fl (fl (p * fl (1 / w)) - 1 / 2) - (p / w - 1 / 2)| < cellError (p / w) := by
  obtain ⟨δ2, h2, e2⟩ := fl_factor (1 / w)
  obtain ⟨δ3, h3, e3⟩ := fl_factor (p * fl (1 / w))
  have e : fl (p * fl (1 / w)) = p / w * ((1 + δ2) * (1 + δ3)) := by
    rw [e3, e2]; field_simp
  have hθ := two_factors (by norm_num : (0 : ℚ) ≤ 1 / 2 ^ 24) h2 h3
  generalize (1 + δ2) * (1 + δ3) = f at e hθ
  rw [e]
  generalize p / w = x
  obtain ⟨δ4, h4, e4⟩ := fl_factor (x * f - 1 / 2)
  rw [e4]
  have a1 : |x * (f - 1)| ≤ |x| * (2 * (1 / 2 ^ 24) + (1 / 2 ^ 24) ^ 2) := by
    rw [abs_mul]; exact mul_le_mul_of_nonneg_left hθ (abs_nonneg _)
  have a2 : |x * f - 1 / 2| ≤ |x| * (1 + 1 / 2 ^ 22) + 1 / 2 := by
    rw [show x * f - 1 / 2 = x + x * (f - 1) - 1 / 2 by ring]
    have := abs_sub (x + x * (f - 1)) (1 / 2)
    have h' := abs_add_le x (x * (f - 1))
    rw [abs_of_pos (by norm_num : (0 : ℚ) < 1 / 2)] at this
    have hx := abs_nonneg x
    nlinarith
  have a3 : |(x * f - 1 / 2) * δ4| ≤ (|x| * (1 + 1 / 2 ^ 22) + 1 / 2) * (1 / 2 ^ 24) := by
    rw [abs_mul]
    have := abs_nonneg x
    exact mul_le_mul a2 h4 (abs_nonneg _) (by positivity)
  rw [show (x * f - 1 / 2) * (1 + δ4) - (x - 1 / 2) = x * (f - 1) + (x * f - 1 / 2) * δ4 by ring]
  refine lt_of_le_of_lt ((abs_add_le _ _).trans (add_le_add a1 a3)) ?_
  unfold cellError
  have hx := abs_nonneg x
  rw [lt_div_iff₀ (by norm_num)]
  nlinarith

/-- C79 (nearest cell): the cell that a point is assigned to contains it, up to the rounding error. -/
theorem C79_nearest_contains (p : Point d) (w : ℚ) (hw : 0 < w) (i : Fin d) :
    ((Single.pointToNearestIndex p (fl (1 / w)) i : ℚ) - cellError (p i / w)) * w ≤ p i ∧
      p i ≤ ((Single.pointToNearestIndex p (fl (1 / w)) i : ℚ) + 1 + cellError (p i / w)) * w := by
  simp only [Single.pointToNearestIndex, Single.scaledPointToNearestIndex]
  have h1 := scaled_err (p i) w hw
  have h2 := cppRound_err (fl (fl (p i * fl (1 / w)) - 1 / 2))
  generalize cppRound (fl (fl (p i * fl (1 / w)) - 1 / 2)) = k at h2
  rw [abs_le] at h2
  rw [abs_lt] at h1
  rw [← le_div_iff₀ hw, ← div_le_iff₀ hw]
  constructor <;> linarith

/-- C79 (interior): a point whose distance from the border of its cell is larger than the rounding error is assigned to this cell. -/
theorem C79_interior (p : Point d) (w : ℚ) (hw : 0 < w) (index : Index d)
    (h : ∀ i, ((index i : ℚ) + cellError (p i / w)) * w ≤ p i ∧ p i ≤ ((index i : ℚ) + 1 - cellError (p i / w)) * w) :
    Single.pointToNearestIndex p (fl (1 / w)) = index := by
  funext i
  obtain ⟨h1, h2⟩ := h i
  rw [← le_div_iff₀ hw] at h1
  rw [← div_le_iff₀ hw] at h2
  have h3 := scaled_err (p i) w hw
  rw [abs_lt] at h3
  apply cppRound_eq
  rw [abs_lt]
  constructor <;> linarith

theorem isFloat_sub_half {x : ℚ} (h : IsFloat x) (h1 : 1 / 2 ≤ x) (h2 : x < 2 ^ 23) : IsFloat (x - 1 / 2) := by
  obtain ⟨k, e, hk, rfl⟩ := h
  have hp := two_zpow_pos e
  by_cases he : -1 ≤ e
  · obtain ⟨n, hn⟩ : ∃ n : Nat, e = (n : Int) - 1 := ⟨(e + 1).toNat, by omega⟩
    have e1 : (2 : ℚ) ^ e = 2 ^ n / 2 := by rw [hn, zpow_sub₀ (by norm_num), zpow_natCast, zpow_one]
    rw [e1] at h1 h2 ⊢
    refine ⟨k * 2 ^ n - 1, -1, ?_, by rw [zpow_neg_one]; push_cast; ring⟩
    rw [abs_lt]
    have a : ((k * 2 ^ n : Int) : ℚ) < ((2 ^ 24 : Int) : ℚ) := by push_cast; linarith
    have b : ((1 : Int) : ℚ) ≤ ((k * 2 ^ n : Int) : ℚ) := by push_cast; linarith
    have a := Int.cast_lt.1 a
    have b := Int.cast_le.1 b
    omega
  · obtain ⟨n, hn⟩ : ∃ n : Nat, e = -1 - (n : Int) := ⟨(-1 - e).toNat, by omega⟩
    have e1 : (2 : ℚ) ^ n * 2 ^ e = 1 / 2 := by
      rw [hn, ← zpow_natCast, ← zpow_add₀ (by norm_num)]; norm_num
    refine ⟨k - 2 ^ n, e, ?_, by push_cast; rw [sub_mul, e1]⟩
    have b : ((2 ^ n : Int) : ℚ) ≤ (k : ℚ) := by
      push_cast
      rw [← e1] at h1
      exact le_of_mul_le_mul_right h1 hp
    have b := Int.cast_le.1 b
    have : (0 : Int) < 2 ^ n := by positivity
    rw [abs_lt] at hk ⊢
    omega

/-- C79 (cells whose width is a power of two): a point with positive coordinates, at least half a cell from zero, is assigned exactly to the cell that contains it. -/
theorem C79_power_of_two (p : Point d) (e : Int) (hp : ∀ i, IsFloat (p i)) (h : ∀ i, 1 / 2 ≤ p i / 2 ^ e ∧ p i / 2 ^ e < 2 ^ 23) (i : Fin d) :
    Single.pointToNearestIndex p (fl (1 / 2 ^ e)) i = ⌊p i / 2 ^ e⌋ := by
  have hw := two_zpow_pos e
  have e1 : fl (1 / 2 ^ e) = 1 / 2 ^ e := fl_of_isFloat ⟨1, -e, by norm_num, by rw [zpow_neg]; simp⟩
  have hx : IsFloat (p i / 2 ^ e) := by
    have := (hp i).mul_zpow (-e)
    rwa [zpow_neg, ← div_eq_mul_inv] at this
  simp only [Single.pointToNearestIndex, Single.scaledPointToNearestIndex]
  rw [e1, mul_one_div, fl_of_isFloat hx, fl_of_isFloat (isFloat_sub_half hx (h i).1 (h i).2)]
  unfold cppRound
  rw [if_pos (by linarith [(h i).1]), sub_add_cancel]

/-- C79 fails for points closer to the border: a point in the cell 0 is assigned to the cell -1. -/
theorem C79_interior_fails :
    InOpenCell (fun _ : Fin 1 => 0) 1 (fun _ => 1 / 2 ^ 27) ∧ Single.pointToNearestIndex (fun _ : Fin 1 => 1 / 2 ^ 27) (fl (1 / 1)) 0 = -1 := by
  have e1 : fl (1 / 1) = 1 := by
    rw [show (1 / 1 : ℚ) = ((1 : Int) : ℚ) by norm_num]; exact fl_int (by norm_num)
  have e2 : fl (1 / 2 ^ 27) = 1 / 2 ^ 27 := fl_of_isFloat ⟨1, -27, by norm_num, by norm_num⟩
  have e3 : fl (1 / 2 ^ 27 - 1 / 2) = -1 / 2 := by
    rw [fl_eq (k := -2 ^ 24) (e := -25)] <;> norm_num [abs_lt, zpow_neg, abs_of_neg]
  refine ⟨fun i => by norm_num, ?_⟩
  simp only [Single.pointToNearestIndex, Single.scaledPointToNearestIndex]
  rw [e1, mul_one, e2, e3]
  unfold cppRound
  norm_num

/-- C79 fails far away from the origin: with cells of 0.1 m, the centre of a cell 524 km from the origin is not assigned to it. -/
theorem C79_far_fails :
    Single.pointToNearestIndex (Single.indexToCenterPoint (fun _ : Fin 1 => 5244001) (fl (1 / 10))) (fl (1 / fl (1 / 10))) 0 ≠ 5244001 := by
  have e1 : fl (1 / 10) = 13421773 / 2 ^ 27 := by
    rw [fl_eq (k := 13421773) (e := -27)] <;> norm_num [abs_lt, zpow_neg, abs_of_neg]
  have e2 : fl (1 / (13421773 / 2 ^ 27)) = 10 := by
    rw [fl_eq (k := 10485760) (e := -20)] <;> norm_num [abs_lt, zpow_neg, abs_of_neg]
  have e3 : fl ((5244001 + 1 / 2) * (13421773 / 2 ^ 27)) = 8390403 / 2 ^ 4 := by
    rw [fl_eq (k := 8390403) (e := -4)] <;> norm_num [abs_lt, zpow_neg, abs_of_neg]
  have e4 : fl (8390403 / 2 ^ 4 * 10) = 5244002 := by
    rw [fl_eq (k := 10488004) (e := -1)] <;> norm_num [abs_lt, zpow_neg, abs_of_neg]
  have e5 : fl (5244002 - 1 / 2) = 10488003 / 2 := by
    rw [show (5244002 - 1 / 2 : ℚ) = 10488003 / 2 by norm_num]; exact fl_of_isFloat ⟨10488003, -1, by norm_num, by norm_num⟩
  simp only [Single.pointToNearestIndex, Single.scaledPointToNearestIndex, Single.indexToCenterPoint]
  rw [fl_int (by norm_num), fl_of_isFloat (isFloat_half (by norm_num)), e1]
  push_cast
  rw [e2, e3, e4, e5]
  unfold cppRound
  norm_num

/-- C79 (ancestors) fails: a point can be assigned to a node that does not contain its cell. In a map with cells of width 1, the point at 1/128 is in the cell 0, but in the node -1 of height 20. -/
theorem C79_ancestor_fails :
    Single.pointToNearestIndex (fun _ : Fin 1 => 1 / 2 ^ 7) (fl (1 / 1)) 0 = 0 ∧
    (Single.pointToNodeIndex (fun _ : Fin 1 => 1 / 2 ^ 7) 1 20).position 0 = -1 := by
  have e1 : fl (1 / 1) = 1 := by
    rw [show (1 / 1 : ℚ) = ((1 : Int) : ℚ) by norm_num]; exact fl_int (by norm_num)
  have e2 : fl (1 / 2 ^ 7) = 1 / 2 ^ 7 := fl_of_isFloat ⟨1, -7, by norm_num, by norm_num⟩
  have e3 : fl (1 / 2 ^ 7 - 1 / 2) = -63 / 128 := by
    rw [show (1 / 2 ^ 7 - 1 / 2 : ℚ) = -63 / 128 by norm_num]; exact fl_of_isFloat ⟨-63, -7, by norm_num, by norm_num⟩
  have e4 : Single.heightToCellWidth 1 20 = 2 ^ 20 := by
    rw [heightToCellWidth_single 1 ⟨1, 0, by norm_num, by norm_num⟩]; unfold heightToCellWidth; rw [exp2_eq]; norm_num
  have e5 : fl (1 / 2 ^ 20) = 1 / 2 ^ 20 := fl_of_isFloat ⟨1, -20, by norm_num, by norm_num⟩
  have e6 : fl (1 / 2 ^ 7 * (1 / 2 ^ 20)) = 1 / 2 ^ 27 := by
    rw [show (1 / 2 ^ 7 * (1 / 2 ^ 20) : ℚ) = 1 / 2 ^ 27 by norm_num]; exact fl_of_isFloat ⟨1, -27, by norm_num, by norm_num⟩
  have e7 : fl (1 / 2 ^ 27 - 1 / 2) = -1 / 2 := by
    rw [fl_eq (k := -2 ^ 24) (e := -25)] <;> norm_num [abs_lt, zpow_neg, abs_of_neg]
  constructor
  · simp only [Single.pointToNearestIndex, Single.scaledPointToNearestIndex]
    rw [e1, mul_one, e2, e3]
    unfold cppRound
    norm_num
  · simp only [Single.pointToNodeIndex, Single.pointToNearestIndex, Single.scaledPointToNearestIndex]
    rw [e4, e5, e6, e7]
    unfold cppRound
    norm_num

/-- C79 (corners): neighbouring cells have the same border, so there are no gaps or overlaps between them. -/
theorem C79_shared_corners (index : Index d) (w : ℚ) (h : ∀ i, |index i| < 2 ^ 24 - 1) :
    Single.indexToMaxCorner index w = Single.indexToMinCorner (fun i => index i + 1) w := by
  funext i
  have hi := h i
  simp only [Single.indexToMaxCorner, Single.indexToMinCorner]
  rw [abs_lt] at hi
  rw [fl_int (by rw [abs_lt]; omega), show (index i : ℚ) + 1 = ((index i + 1 : Int) : ℚ) by push_cast; ring]

/-- C79 (corners): a cell contains its centre, and cells with larger indices come later. -/
theorem C79_corners (index index' : Index d) (w : ℚ) (hw : 0 ≤ w) (i : Fin d) :
    Single.indexToMinCorner index w i ≤ Single.indexToCenterPoint index w i ∧
    Single.indexToCenterPoint index w i ≤ Single.indexToMaxCorner index w i ∧
    (index i ≤ index' i → Single.indexToMinCorner index w i ≤ Single.indexToMinCorner index' w i) := by
  simp only [Single.indexToMinCorner, Single.indexToCenterPoint, Single.indexToMaxCorner]
  refine ⟨fl_mono (mul_le_mul_of_nonneg_right ?_ hw), fl_mono (mul_le_mul_of_nonneg_right (fl_mono (by linarith)) hw), fun h =>
    fl_mono (mul_le_mul_of_nonneg_right (fl_mono (by exact_mod_cast h)) hw)⟩
  have := fl_mono (x := fl (index i : ℚ)) (y := fl (index i : ℚ) + 1 / 2) (by linarith)
  rwa [fl_fl] at this

/-- C79 (corners): a corner is off by at most its relative rounding error. -/
theorem C79_corner_error (index : Index d) (w : ℚ) (i : Fin d) (h : |index i| < 2 ^ 24) :
    |Single.indexToMinCorner index w i - indexToMinCorner index w i| ≤ |indexToMinCorner index w i| / 2 ^ 24 := by
  simp only [Single.indexToMinCorner, indexToMinCorner]
  rw [fl_int h]
  exact fl_err _

/-- C79 (corners of nodes): the corners of a node are, without any error, those of the cells at its corners: the first cell of the node begins where the node begins, and the node ends where
the first cell behind it begins. So nodes of different heights fit together without gaps and overlaps. -/
theorem C79_node_corners (n : NdtreeIndex d) (w : ℚ) (hf : IsFloat w) (h : ∀ i, |n.position i| < 2 ^ 24 - 1) :
    Single.nodeIndexToMinCorner n w = Single.indexToMinCorner (fun i => n.position i * 2 ^ n.height.toNat) w ∧
    Single.nodeIndexToMaxCorner n w = Single.indexToMinCorner (fun i => (n.position i + 1) * 2 ^ n.height.toNat) w := by
  have key : ∀ (k : Int) (m : Nat), |k| < 2 ^ 24 → fl (((k * 2 ^ m : Int) : ℚ)) = k * 2 ^ m := by
    intro k m hk
    have := (isFloat_int hk).mul_zpow m
    rw [zpow_natCast] at this
    push_cast
    exact fl_of_isFloat this
  constructor <;> funext i <;> have hi := abs_lt.1 (h i)
  · simp only [Single.nodeIndexToMinCorner, Single.indexToMinCorner]
    rw [key _ _ (abs_lt.2 (by omega)), fl_int (abs_lt.2 (by omega)), heightToCellWidth_single w hf]
    unfold heightToCellWidth
    rw [exp2_eq]; congr 1; push_cast; ring
  · simp only [Single.nodeIndexToMaxCorner, Single.indexToMaxCorner, Single.indexToMinCorner]
    rw [key _ _ (abs_lt.2 (by omega)), fl_int (i := n.position i) (abs_lt.2 (by omega)), show (n.position i : ℚ) + 1 = ((n.position i + 1 : Int) : ℚ) by push_cast; ring,
      fl_int (abs_lt.2 (by omega)), heightToCellWidth_single w hf]
    unfold heightToCellWidth
    rw [exp2_eq]; congr 1; push_cast; ring

/-- A node of height 3 with cells of `5 / 64`. -/
example : (∀ i, |(⟨3, ![2, -5]⟩ : NdtreeIndex 2).position i| < 2 ^ 24 - 1) ∧ IsFloat (5 / 64) ∧
    Single.nodeIndexToMaxCorner (⟨3, ![2, -5]⟩ : NdtreeIndex 2) (5 / 64) 0 = 15 / 8 := by
  refine ⟨by decide +kernel, ⟨5, -6, by norm_num, by norm_num⟩, by decide +kernel⟩

/-! ## Examples -/

/-- The hypotheses can be met: a point in the middle of a cell of 0.1 m. -/
example : Single.pointToNearestIndex (fun _ : Fin 3 => 7 / 20) (fl (1 / (1 / 10))) = fun _ => 3 := by
  refine C79_interior _ _ (by norm_num) _ fun i => ?_
  unfold cellError
  norm_num [abs_of_pos]

example : Single.pointToNearestIndex (fun _ : Fin 3 => 13 / 8) (fl (1 / 2 ^ (-2 : Int))) 0 = 6 := by
  rw [C79_power_of_two (fun _ : Fin 3 => 13 / 8) (-2) (fun _ => ⟨13, -3, by norm_num, by norm_num⟩) (fun _ => by norm_num)]
  norm_num

example : IsFloat (13421773 / 2 ^ 27) ∧ ¬ IsFloat (1 / 3) := by
  refine ⟨⟨13421773, -27, by norm_num, by norm_num⟩, ?_⟩
  intro h
  have := fl_of_isFloat h
  rw [fl_eq (k := 11184811) (e := -25) (by norm_num [abs_of_pos]) (by norm_num [abs_lt]) (by norm_num [abs_lt])] at this
  norm_num at this

end Wavemap
