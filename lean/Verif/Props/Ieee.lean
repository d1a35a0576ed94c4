import Verif.Model.Ieee
import Verif.Props.SinglePrecision
/-!
# C79 with the full range of single precision

The theorems of `Verif.Props.SinglePrecision` use a rounding whose exponent is not bounded. Here the exponent is bounded as in IEEE 754: small numbers are subnormal or flushed to zero, and
large numbers overflow. For reasonable cell widths neither changes any cell.
-/
namespace Wavemap

/-! ## Specification -/

/-- A rounding to single precision: to the nearest of the normal numbers. What is too small for a normal number becomes some number that is not larger than the smallest normal number (a
subnormal number, or zero); nothing is said about what is too large. -/
structure IsIeeeRounding (r : ℚ → ℚ) : Prop where
  zero : r 0 = 0
  normal : ∀ x, 1 / 2 ^ 126 ≤ |x| → |x| < 2 ^ 128 - 2 ^ 103 → r x = fl x
  small : ∀ x, |x| < 1 / 2 ^ 126 → |r x| ≤ 1 / 2 ^ 126

/-- Cell widths between `2^-100` and `2^100`. -/
def ReasonableWidth (w : ℚ) : Prop := 1 / 2 ^ 100 ≤ w ∧ w ≤ 2 ^ 100

/-- Rounding with subnormal numbers is such a rounding. -/
theorem ieeeRound_isIeee : IsIeeeRounding ieeeRound where
  zero := by
    have : roundTiesToEven ((0 : Int) : ℚ) = 0 := roundTiesToEven_int 0
    rw [Int.cast_zero] at this
    unfold ieeeRound
    rw [if_pos (by rw [abs_zero]; positivity), zero_mul, this]
    norm_num
  normal x h _ := by unfold ieeeRound; rw [if_neg (not_lt.2 h)]
  small x h := by
    unfold ieeeRound
    rw [if_pos h]
    obtain ⟨h1, h2⟩ := abs_lt.1 h
    have e1 : x * 2 ^ 149 ≤ ((2 ^ 23 : Int) : ℚ) := by push_cast; norm_num at *; linarith
    have e2 : ((-2 ^ 23 : Int) : ℚ) ≤ x * 2 ^ 149 := by push_cast; norm_num at *; linarith
    have f1 := roundTiesToEven_mono e1
    have f2 := roundTiesToEven_mono e2
    rw [roundTiesToEven_int] at f1 f2
    have g1 : (roundTiesToEven (x * 2 ^ 149) : ℚ) ≤ ((2 ^ 23 : Int) : ℚ) := by exact_mod_cast f1
    have g2 : ((-2 ^ 23 : Int) : ℚ) ≤ (roundTiesToEven (x * 2 ^ 149) : ℚ) := by exact_mod_cast f2
    push_cast at g1 g2
    rw [abs_le, le_div_iff₀ (by positivity), div_le_iff₀ (by positivity)]
    norm_num at *
    constructor <;> linarith

/-- The subnormal numbers are the multiples of `2^-149` below `2^-126`: they are not rounded, and every other number in this range is rounded by at most half of their distance. -/
theorem ieeeRound_subnormal (x : ℚ) (h : |x| < 1 / 2 ^ 126) : |ieeeRound x - x| ≤ 1 / 2 ^ 150 ∧ ((∃ k : Int, x = k / 2 ^ 149) → ieeeRound x = x) := by
  unfold ieeeRound
  rw [if_pos h]
  constructor
  · have := roundTiesToEven_err (x * 2 ^ 149)
    have e : (roundTiesToEven (x * 2 ^ 149) : ℚ) / 2 ^ 149 - x = (roundTiesToEven (x * 2 ^ 149) - x * 2 ^ 149) / 2 ^ 149 := by field_simp
    rw [e, abs_div, abs_of_pos (by positivity : (0 : ℚ) < 2 ^ 149), div_le_iff₀ (by positivity)]
    refine this.trans (le_of_eq ?_)
    norm_num
  · rintro ⟨k, rfl⟩
    rw [div_mul_cancel₀ _ (by positivity), roundTiesToEven_int]

/-- Flushing subnormal numbers to zero is another one. -/
theorem flush_isIeee : IsIeeeRounding fun x => if |x| < 1 / 2 ^ 126 then 0 else fl x where
  zero := by rw [if_pos (by rw [abs_zero]; positivity)]
  normal x h _ := by rw [if_neg (not_lt.2 h)]
  small x h := by rw [if_pos h, abs_zero]; positivity

/-! ## Helper lemmas -/

/-- Close to one half there is no other single precision number. -/
theorem fl_near_half {t : ℚ} (h : |t - 1 / 2| < 1 / 2 ^ 27) : fl t = 1 / 2 := by
  obtain ⟨h1, h2⟩ := abs_lt.1 h
  rcases le_or_gt (1 / 2) t with ht | ht
  · have hp : (2 : ℚ) ^ (-24 : Int) = 1 / 2 ^ 24 := by norm_num
    rw [fl_eq (k := 2 ^ 23) (e := -24)]
    · rw [hp]; norm_num
    · rw [hp, abs_of_nonneg (by positivity)]; norm_num at *; linarith
    · rw [hp, abs_of_nonneg (by positivity)]; norm_num at *; linarith
    · rw [hp, abs_lt]; push_cast; norm_num at *; constructor <;> linarith
  · have hp : (2 : ℚ) ^ (-25 : Int) = 1 / 2 ^ 25 := by norm_num
    have h0 : 0 ≤ t := by norm_num at *; linarith
    rw [fl_eq (k := 2 ^ 24) (e := -25)]
    · rw [hp]; norm_num
    · rw [hp, abs_of_nonneg (by positivity)]; norm_num at *; linarith
    · rw [hp, abs_of_nonneg (by positivity)]; norm_num at *; linarith
    · rw [hp, abs_lt]; push_cast; norm_num at *; constructor <;> linarith

theorem fl_near_neg_half {z : ℚ} (h : |z| ≤ 1 / 2 ^ 126) : fl (z - 1 / 2) = -(1 / 2) := by
  have : fl (-z + 1 / 2) = 1 / 2 := fl_near_half (by
    rw [add_sub_cancel_right, abs_neg]; exact h.trans_lt (by norm_num))
  rw [show z - 1 / 2 = -(-z + 1 / 2) by ring, fl_neg, this]

variable {r : ℚ → ℚ} {d : Nat}

theorem IsIeeeRounding.eq (hr : IsIeeeRounding r) {x : ℚ} (h1 : 1 / 2 ^ 126 ≤ |x|) (h2 : |x| ≤ 2 ^ 127) : r x = fl x :=
  hr.normal x h1 (h2.trans_lt (by norm_num))

theorem IsIeeeRounding.int (hr : IsIeeeRounding r) {k : Int} (h : |k| < 2 ^ 24) : r k = k := by
  by_cases h0 : k = 0
  · subst h0; rw [Int.cast_zero, hr.zero]
  · have h1 : (1 : Int) ≤ |k| := Int.one_le_abs h0
    have e1 : (1 : ℚ) ≤ |(k : ℚ)| := by exact_mod_cast h1
    have e2 : |(k : ℚ)| ≤ 2 ^ 24 := by exact_mod_cast h.le
    rw [hr.eq (le_trans (by norm_num) e1) (e2.trans (by norm_num)), fl_int h]

theorem fl_pow_bound {x : ℚ} {n : Nat} (h : |x| ≤ 2 ^ n) : |fl x| ≤ 2 ^ n := by
  have hB : IsFloat ((2 : ℚ) ^ n) := by have := isFloat_pow n; push_cast at this; exact this
  obtain ⟨h1, h2⟩ := abs_le.1 h
  have h1 := fl_mono h1
  have h2 := fl_mono h2
  rw [fl_neg, fl_of_isFloat hB] at h1
  rw [fl_of_isFloat hB] at h2
  exact abs_le.2 ⟨h1, h2⟩

theorem fl_small_bound {x : ℚ} (h : |x| ≤ 1 / 2 ^ 126) : |fl x| ≤ 1 / 2 ^ 126 := by
  have hB : IsFloat (1 / 2 ^ 126) := ⟨1, -126, by norm_num, by norm_num⟩
  obtain ⟨h1, h2⟩ := abs_le.1 h
  have h1 := fl_mono h1
  have h2 := fl_mono h2
  rw [fl_neg, fl_of_isFloat hB] at h1
  rw [fl_of_isFloat hB] at h2
  exact abs_le.2 ⟨h1, h2⟩

/-- Subtracting one half from a single precision number does not underflow. -/
theorem IsIeeeRounding.sub_half (hr : IsIeeeRounding r) {x : ℚ} (hf : IsFloat x) (h : |x| ≤ 2 ^ 126) : r (x - 1 / 2) = fl (x - 1 / 2) := by
  by_cases hs : |x - 1 / 2| < 1 / 2 ^ 27
  · have : x = 1 / 2 := by rw [← fl_of_isFloat hf]; exact fl_near_half hs
    rw [this, sub_self, hr.zero, fl_zero]
  · refine hr.eq (le_trans (by norm_num) (not_lt.1 hs)) ?_
    obtain ⟨h1, h2⟩ := abs_le.1 h
    rw [abs_le]
    norm_num at *
    constructor <;> linarith

/-! ## C79 -/

/-- C79, full range: subnormal numbers and overflow do not change the cell of a point, as long as the scaled coordinates do not exceed `2^126`. -/
theorem C79_ieee_cell (hr : IsIeeeRounding r) (p : Point d) (inv : ℚ) (h : ∀ i, |p i * inv| ≤ 2 ^ 126) :
    Ieee.pointToNearestIndex r p inv = Single.pointToNearestIndex p inv := by
  funext i
  have hi := h i
  simp only [Ieee.pointToNearestIndex, Ieee.scaledPointToNearestIndex, Single.pointToNearestIndex, Single.scaledPointToNearestIndex]
  generalize p i * inv = x at hi
  rcases lt_or_ge |x| (1 / 2 ^ 126) with hs | hs
  · have h1 := hr.small x hs
    have h2 := fl_small_bound hs.le
    rw [fl_near_neg_half h2]
    rw [hr.eq, fl_near_neg_half h1]
    · obtain ⟨a, b⟩ := abs_le.1 h1
      rw [abs_of_neg (by norm_num at *; linarith)]
      norm_num at *; linarith
    · obtain ⟨a, b⟩ := abs_le.1 h1
      rw [abs_of_neg (by norm_num at *; linarith)]
      norm_num at *; linarith
  · rw [hr.eq hs (hi.trans (by norm_num)), hr.sub_half (isFloat_fl x) (fl_pow_bound hi)]

/-- The inverse of a reasonable cell width. -/
theorem IsIeeeRounding.inverse (hr : IsIeeeRounding r) {w : ℚ} (hw : ReasonableWidth w) : r (1 / w) = fl (1 / w) := by
  have hpos : 0 < w := lt_of_lt_of_le (by positivity) hw.1
  have h1 : 1 / 2 ^ 100 ≤ 1 / w := one_div_le_one_div_of_le hpos hw.2
  have h2 : 1 / w ≤ 2 ^ 100 := by
    have := one_div_le_one_div_of_le (by positivity) hw.1
    rwa [one_div_one_div] at this
  refine hr.eq ?_ ?_ <;> rw [abs_of_pos (by positivity)]
  · exact le_trans (by norm_num) h1
  · exact h2.trans (by norm_num)

/-- C79, full range: for a reasonable cell width, the cell that is found for a point up to `2^25` m from the origin is the one of C79_nearest_contains and C79_interior, so their bounds hold
for it. -/
theorem C79_ieee_nearest (hr : IsIeeeRounding r) (p : Point d) (w : ℚ) (hw : ReasonableWidth w) (h : ∀ i, |p i| ≤ 2 ^ 25) :
    Ieee.pointToNearestIndex r p (r (1 / w)) = Single.pointToNearestIndex p (fl (1 / w)) := by
  have hpos : 0 < w := lt_of_lt_of_le (by positivity) hw.1
  have h2 : 1 / w ≤ 2 ^ 100 := by
    have := one_div_le_one_div_of_le (by positivity) hw.1
    rwa [one_div_one_div] at this
  rw [hr.inverse hw]
  refine C79_ieee_cell hr p _ fun i => ?_
  have h3 : |fl (1 / w)| ≤ 2 ^ 100 := fl_pow_bound (by rwa [abs_of_pos (by positivity)])
  rw [abs_mul]
  calc |p i| * |fl (1 / w)| ≤ 2 ^ 25 * 2 ^ 100 := mul_le_mul (h i) h3 (abs_nonneg _) (by positivity)
    _ ≤ 2 ^ 126 := by norm_num

/-- The product of a cell width and a number that is zero or between one half and `2^24`. -/
theorem IsIeeeRounding.mul_width (hr : IsIeeeRounding r) {w x : ℚ} (hw : ReasonableWidth w) (h0 : x = 0 ∨ 1 / 2 ≤ |x|) (h1 : |x| ≤ 2 ^ 24) : r (x * w) = fl (x * w) := by
  have hpos : 0 < w := lt_of_lt_of_le (by positivity) hw.1
  rcases h0 with rfl | h0
  · rw [zero_mul, hr.zero, fl_zero]
  · refine hr.eq ?_ ?_ <;> rw [abs_mul, abs_of_pos hpos]
    · calc (1 : ℚ) / 2 ^ 126 ≤ 1 / 2 * (1 / 2 ^ 100) := by norm_num
        _ ≤ |x| * w := mul_le_mul h0 hw.1 (by positivity) (abs_nonneg _)
    · calc |x| * w ≤ 2 ^ 24 * 2 ^ 100 := mul_le_mul h1 hw.2 hpos.le (by positivity)
        _ ≤ 2 ^ 127 := by norm_num

theorem int_bounds {k : Int} (h : |k| ≤ 2 ^ 24) : ((k : ℚ) = 0 ∨ 1 / 2 ≤ |(k : ℚ)|) ∧ |(k : ℚ)| ≤ 2 ^ 24 := by
  refine ⟨?_, by exact_mod_cast h⟩
  by_cases h0 : k = 0
  · exact Or.inl (by rw [h0]; rfl)
  · have h1 : (1 : Int) ≤ |k| := Int.one_le_abs h0
    have e1 : (1 : ℚ) ≤ |(k : ℚ)| := by exact_mod_cast h1
    exact Or.inr (by linarith)

/-- C79, full range: the corners and centres of cells up to eight million cells from the origin are those of C79_shared_corners, C79_corners and C79_corner_error. -/
theorem C79_ieee_corners (hr : IsIeeeRounding r) (index : Index d) (w : ℚ) (hw : ReasonableWidth w) (h : ∀ i, |index i| < 2 ^ 23) :
    Ieee.indexToMinCorner r index w = Single.indexToMinCorner index w ∧ Ieee.indexToMaxCorner r index w = Single.indexToMaxCorner index w ∧
      Ieee.indexToCenterPoint r index w = Single.indexToCenterPoint index w := by
  refine ⟨?_, ?_, ?_⟩ <;> funext i <;> have hi := h i <;>
    simp only [Ieee.indexToMinCorner, Single.indexToMinCorner, Ieee.indexToMaxCorner, Single.indexToMaxCorner, Ieee.indexToCenterPoint, Single.indexToCenterPoint] <;>
    generalize index i = k at hi <;> rw [hr.int (by omega), fl_int (by omega)]
  · obtain ⟨a, b⟩ := int_bounds (k := k) (by omega)
    exact hr.mul_width hw a b
  · have e : (k : ℚ) + 1 = ((k + 1 : Int) : ℚ) := by push_cast; ring
    have hk : |k + 1| < 2 ^ 24 := by rw [abs_lt] at *; omega
    rw [e, hr.int hk, fl_int hk]
    obtain ⟨a, b⟩ := int_bounds (k := k + 1) hk.le
    exact hr.mul_width hw a b
  · have hl : 1 / 2 ≤ |(k : ℚ) + 1 / 2| := by
      rcases le_or_gt 0 k with h0 | h0
      · have : (0 : ℚ) ≤ k := by exact_mod_cast h0
        rw [abs_of_nonneg (by linarith)]; linarith
      · have : (k : ℚ) ≤ -1 := by exact_mod_cast (by omega : k ≤ -1)
        rw [abs_of_neg (by linarith)]; linarith
    have hu : |(k : ℚ) + 1 / 2| ≤ 2 ^ 24 := by
      have : |(k : ℚ)| ≤ 2 ^ 23 := by exact_mod_cast hi.le
      refine (abs_add_le _ _).trans ?_
      rw [abs_of_pos (by norm_num : (0 : ℚ) < 1 / 2)]
      norm_num at *
      linarith
    rw [hr.eq (le_trans (by norm_num) hl) (hu.trans (by norm_num)), fl_of_isFloat (isFloat_half hi)]
    exact hr.mul_width hw (Or.inr hl) hu

/-- C79 (round trip), full range. -/
theorem C79_ieee_roundtrip (hr : IsIeeeRounding r) (index : Index d) (w : ℚ) (hw : ReasonableWidth w) (h : ∀ i, |index i| ≤ 2 ^ 21 - 4) :
    Ieee.pointToNearestIndex r (Ieee.indexToCenterPoint r index w) (r (1 / w)) = index := by
  have hpos : 0 < w := lt_of_lt_of_le (by positivity) hw.1
  have h2 : 1 / w ≤ 2 ^ 100 := by
    have := one_div_le_one_div_of_le (by positivity) hw.1
    rwa [one_div_one_div] at this
  rw [(C79_ieee_corners hr index w hw fun i => by have := h i; omega).2.2, hr.inverse hw, C79_ieee_cell hr, C79_center_roundtrip index w hpos h]
  intro i
  have hi := h i
  simp only [Single.indexToCenterPoint]
  generalize index i = k at hi
  rw [fl_int (by omega : |k| < 2 ^ 24), fl_of_isFloat (isFloat_half (by omega : |k| < 2 ^ 23))]
  obtain ⟨δ1, b1, e1⟩ := fl_factor (((k : ℚ) + 1 / 2) * w)
  obtain ⟨δ2, b2, e2⟩ := fl_factor (1 / w)
  rw [e1, e2, show ((k : ℚ) + 1 / 2) * w * (1 + δ1) * (1 / w * (1 + δ2)) = ((k : ℚ) + 1 / 2) * ((1 + δ1) * (1 + δ2)) by field_simp]
  have hk : |(k : ℚ) + 1 / 2| ≤ 2 ^ 22 := by
    have : |(k : ℚ)| ≤ 2 ^ 21 - 4 := by exact_mod_cast hi
    refine (abs_add_le _ _).trans ?_
    rw [abs_of_pos (by norm_num : (0 : ℚ) < 1 / 2)]
    norm_num at *
    linarith
  have hd : ∀ δ : ℚ, |δ| ≤ 1 / 2 ^ 24 → |1 + δ| ≤ 2 := fun δ hδ => by
    refine (abs_add_le _ _).trans ?_
    rw [abs_one]; norm_num at *; linarith
  rw [abs_mul, abs_mul]
  calc |(k : ℚ) + 1 / 2| * (|1 + δ1| * |1 + δ2|) ≤ 2 ^ 22 * (2 * 2) :=
        mul_le_mul hk (mul_le_mul (hd _ b1) (hd _ b2) (abs_nonneg _) (by norm_num)) (by positivity) (by positivity)
    _ ≤ 2 ^ 126 := by norm_num

/-- The width of the nodes of a tree. -/
theorem IsIeeeRounding.width (hr : IsIeeeRounding r) {w : ℚ} (hw : 0 < w) (hf : IsFloat w) (hl : 1 / 2 ^ 100 ≤ w) {h : Nat} (hh : h ≤ 60) (hu : w * 2 ^ h ≤ 2 ^ 100) :
    Ieee.heightToCellWidth r w h = w * 2 ^ h := by
  have e1 : ((exp2 h : Nat) : ℚ) = 2 ^ h := by rw [exp2_eq]; push_cast; rfl
  have h1 : (1 : ℚ) ≤ 2 ^ h := one_le_pow₀ (by norm_num)
  have h2 : (2 : ℚ) ^ h ≤ 2 ^ 60 := pow_le_pow_right₀ (by norm_num) hh
  have e2 : r (2 ^ h) = 2 ^ h := by
    rw [hr.eq, ← e1, exp2_eq, fl_of_isFloat (isFloat_pow h)]
    · rw [abs_of_pos (by positivity)]; exact le_trans (by norm_num) h1
    · rw [abs_of_pos (by positivity)]; exact h2.trans (by norm_num)
  unfold Ieee.heightToCellWidth
  rw [e1, e2]
  have hlow : 1 / 2 ^ 100 ≤ w * 2 ^ h := hl.trans (le_mul_of_one_le_right hw.le h1)
  have hF : IsFloat (w * 2 ^ h) := by have := hf.mul_zpow h; rwa [zpow_natCast] at this
  rw [hr.eq, fl_of_isFloat hF]
  · rw [abs_of_pos (by positivity)]; exact le_trans (by norm_num) hlow
  · rw [abs_of_pos (by positivity)]; exact hu.trans (by norm_num)

/-- C79 (round trip of nodes), full range. -/
theorem C79_ieee_node_roundtrip (hr : IsIeeeRounding r) (n : NdtreeIndex d) (hn : 0 ≤ n.height) (hn' : n.height ≤ 60) (w : ℚ) (hf : IsFloat w) (hl : 1 / 2 ^ 100 ≤ w)
    (hu : w * 2 ^ n.height.toNat ≤ 2 ^ 100) (h : ∀ i, |n.position i| ≤ 2 ^ 21 - 4) :
    Ieee.pointToNodeIndex r (Ieee.nodeIndexToCenterPoint r n w) w n.height.toNat = n := by
  have hw : 0 < w := lt_of_lt_of_le (by positivity) hl
  have e := hr.width hw hf hl (h := n.height.toNat) (by omega) hu
  have hlow : 1 / 2 ^ 100 ≤ w * 2 ^ n.height.toNat := hl.trans (le_mul_of_one_le_right hw.le (one_le_pow₀ (by norm_num)))
  have := C79_ieee_roundtrip hr n.position (w * 2 ^ n.height.toNat) ⟨hlow, hu⟩ h
  unfold Ieee.pointToNodeIndex Ieee.nodeIndexToCenterPoint
  rw [e]
  ext i
  · simp [hn]
  · exact congrFun this i

/-- C79, full range: the cast to a 32-bit index does not overflow for points less than `2^29` cells from the origin. -/
theorem C79_ieee_index_fits (hr : IsIeeeRounding r) (p : Point d) (w : ℚ) (hw : ReasonableWidth w) (h : ∀ i, |p i| ≤ 2 ^ 25) (h' : ∀ i, |p i / w| ≤ 2 ^ 29) (i : Fin d) :
    |Ieee.pointToNearestIndex r p (r (1 / w)) i| < 2 ^ 31 := by
  have hpos : 0 < w := lt_of_lt_of_le (by positivity) hw.1
  rw [C79_ieee_nearest hr p w hw h]
  obtain ⟨h1, h2⟩ := C79_nearest_contains p w hpos i
  rw [← le_div_iff₀ hpos] at h1
  rw [← div_le_iff₀ hpos] at h2
  have hx := h' i
  generalize Single.pointToNearestIndex p (fl (1 / w)) i = k at h1 h2
  generalize p i / w = x at h1 h2 hx
  unfold cellError at h1 h2
  obtain ⟨a, b⟩ := abs_le.1 hx
  have : |(k : ℚ)| < 2 ^ 31 := by
    rw [abs_lt]
    norm_num at *
    constructor <;> linarith
  exact_mod_cast this

/-! ## Examples -/

/-- The hypotheses can be met: cells of 0.1 m in a tree, with subnormal numbers. -/
example : ReasonableWidth (fl (1 / 10)) ∧ IsFloat (fl (1 / 10)) ∧ 1 / 2 ^ 100 ≤ fl (1 / 10) ∧ fl (1 / 10) * 2 ^ 6 ≤ 2 ^ 100 := by
  refine ⟨?_, isFloat_fl _, ?_, ?_⟩
  · unfold ReasonableWidth; decide +kernel
  · decide +kernel
  · decide +kernel

/-- A point whose coordinate is subnormal, and one that is rounded to zero, are in the same cell as with an unbounded exponent. -/
example : Ieee.pointToNearestIndex ieeeRound (fun _ : Fin 1 => 1 / 2 ^ 140) (ieeeRound (1 / 4)) 0 = -1 ∧
    Ieee.pointToNearestIndex ieeeRound (fun _ : Fin 1 => 3 / 2 ^ 160) (ieeeRound (1 / 4)) 0 = -1 := by decide +kernel

/-- The range of the widths is needed: the inverse of a cell width of `2^-130` m overflows, and with a rounding that loses such numbers each point is in the first cell. -/
example : let lost : ℚ → ℚ := fun x => if |x| < 2 ^ 128 - 2 ^ 103 then ieeeRound x else 0
    Ieee.pointToNearestIndex lost (fun _ : Fin 1 => 5 / 2 ^ 130) (lost (1 / (1 / 2 ^ 130))) 0 ≠
      Single.pointToNearestIndex (fun _ : Fin 1 => 5 / 2 ^ 130) (fl (1 / (1 / 2 ^ 130))) 0 := by decide +kernel

/-- IEEE rounding: a point, a width of 0.1 and indices far from the origin. -/
example : Ieee.pointToNearestIndex ieeeRound (fun _ : Fin 1 => fl (123 / 10)) (ieeeRound (1 / fl (1 / 10))) =
      Single.pointToNearestIndex (fun _ => fl (123 / 10)) (ieeeRound (1 / fl (1 / 10))) ∧
    Ieee.pointToNearestIndex ieeeRound (Ieee.indexToCenterPoint ieeeRound (fun _ : Fin 1 => -2000000) (fl (1 / 10))) (ieeeRound (1 / fl (1 / 10))) = fun _ => -2000000 :=
  ⟨C79_ieee_cell ieeeRound_isIeee _ _ fun _ => by decide +kernel,
    C79_ieee_roundtrip ieeeRound_isIeee _ _ (by unfold ReasonableWidth; decide +kernel) fun _ => by decide⟩

end Wavemap
