import Verif.Model.NodeHeight
import Verif.Props.SinglePrecision
import Mathlib.Analysis.Convex.SpecificFunctions.Basic
import Mathlib.Analysis.SpecialFunctions.Log.Deriv
import Mathlib.Analysis.Complex.ExponentialBounds
/-!
# C87: choosing the height for a requested resolution

To read a map at a requested resolution, the width of a node is converted to a height.
-/
namespace Wavemap

/-! ## Specification -/

/-- Numbers whose logarithm is asked for: the single precision range. -/
def InSingleRange (x : ℚ) : Prop := 1 / 2 ^ 150 ≤ x ∧ x ≤ 2 ^ 128

/-- What is assumed of a single precision `std::log2`: it does not cross powers of two (so that it is exact for them), and it is accurate up to a relative error of `2 ^ -22`, two units in the
last place. Rounding of the result is included. -/
structure IsLog2 (log2 : ℚ → ℝ) : Prop where
  ge : ∀ x (k : Int), InSingleRange x → 2 ^ k ≤ x → (k : ℝ) ≤ log2 x
  le : ∀ x (k : Int), InSingleRange x → x ≤ 2 ^ k → log2 x ≤ k
  err : ∀ x, InSingleRange x → |log2 x - Real.logb 2 x| ≤ |Real.logb 2 x| / 2 ^ 22

/-- It returns the closest single precision number. -/
def IsNearest (log2 : ℚ → ℝ) : Prop :=
  ∀ x, InSingleRange x → ∃ z : ℚ, IsFloat z ∧ log2 x = z ∧ ∀ y : ℚ, IsFloat y → |(z : ℝ) - Real.logb 2 x| ≤ |(y : ℝ) - Real.logb 2 x|

/-! ## Lemmas -/

namespace NodeHeight

theorem cast_two_zpow (k : Int) : (((2 : ℚ) ^ k : ℚ) : ℝ) = 2 ^ k := by rw [Rat.cast_zpow]; norm_num

theorem logb_le_iff {x : ℚ} (hx : 0 < x) (k : Int) : Real.logb 2 x ≤ k ↔ x ≤ 2 ^ k := by
  rw [Real.logb_le_iff_le_rpow (by norm_num) (by exact_mod_cast hx), Real.rpow_intCast, ← cast_two_zpow, Rat.cast_le]

theorem le_logb_iff {x : ℚ} (hx : 0 < x) (k : Int) : (k : ℝ) ≤ Real.logb 2 x ↔ 2 ^ k ≤ x := by
  rw [Real.le_logb_iff_rpow_le (by norm_num) (by exact_mod_cast hx), Real.rpow_intCast, ← cast_two_zpow, Rat.cast_le]

/-- The product of a number and its rounded inverse is at most one, and hardly smaller. -/
theorem fl_mul_inv {w : ℚ} (hw : 0 < w) : fl (w * fl (1 / w)) ≤ 1 ∧ 3 / 4 < fl (w * fl (1 / w)) := by
  have ht : fl (1 + 1 / 2 ^ 24) = 1 := by decide +kernel
  constructor
  · refine le_trans (fl_mono (y := 1 + 1 / 2 ^ 24) ?_) ht.le
    have hv : (0 : ℚ) < 1 / w := by positivity
    have hb := lastBit_bounds hv.ne'
    have hp := two_zpow_pos (lastBit (1 / w))
    rw [abs_of_pos (div_pos hv hp)] at hb
    have hn := fl_of_ne hv.ne'
    have he := roundTiesToEven_err (1 / w / 2 ^ lastBit (1 / w))
    generalize (2 : ℚ) ^ lastBit (1 / w) = u at hb hp hn he
    rw [hn]
    have h1 := (abs_le.1 he).2
    obtain ⟨hb1, -⟩ := hb
    rcases hb1.eq_or_lt with hq | hq
    · rw [← hq, show ((2 : ℚ) ^ 23) = ((2 ^ 23 : Int) : ℚ) by norm_num, roundTiesToEven_int]
      have : 1 / w = 2 ^ 23 * u := by rw [hq]; field_simp
      have h2 : w * (2 ^ 23 * u) = 1 := by rw [← this]; field_simp
      norm_num at h2 ⊢
      linarith
    · have hwu : w * u < 1 / 2 ^ 23 := by
        rw [div_div, lt_div_iff₀ (by positivity)] at hq
        rw [lt_div_iff₀ (by norm_num)]
        linarith
      have : w * ((roundTiesToEven (1 / w / u) : ℚ) * u) ≤ w * ((1 / w / u + 1 / 2) * u) := by
        gcongr; linarith
      refine this.trans ?_
      have e : w * ((1 / w / u + 1 / 2) * u) = 1 + w * u / 2 := by field_simp
      rw [e]
      linarith
  · obtain ⟨δ1, h1, e1⟩ := fl_factor (1 / w)
    obtain ⟨δ2, h2, e2⟩ := fl_factor (w * fl (1 / w))
    rw [e2, e1]
    rw [abs_le] at h1 h2
    have : w * (1 / w * (1 + δ1)) * (1 + δ2) = (1 + δ1) * (1 + δ2) := by field_simp
    rw [this]
    nlinarith

theorem _root_.Wavemap.InSingleRange.pos {x : ℚ} (h : InSingleRange x) : 0 < x := lt_of_lt_of_le (by norm_num) h.1

/-- Every real number has a closest single precision number, which is off by at most `2 ^ -24`. -/
theorem exists_nearest (y : ℝ) : ∃ z : ℚ, IsFloat z ∧ (∀ f : ℚ, IsFloat f → |(z : ℝ) - y| ≤ |(f : ℝ) - y|) ∧ |(z : ℝ) - y| ≤ |y| / 2 ^ 24 := by
  by_cases hy : y = 0
  · exact ⟨0, isFloat_zero, fun f _ => by simp [hy], by simp [hy]⟩
  obtain ⟨e0, h1, h2⟩ := exists_mem_Ico_zpow (abs_pos.2 hy) (by norm_num : (1 : ℝ) < 2)
  obtain ⟨e, rfl⟩ : ∃ e : Int, e0 = e + 23 := ⟨e0 - 23, by ring⟩
  have hp : (0 : ℝ) < 2 ^ e := by positivity
  rw [zpow_add₀ (by norm_num)] at h1
  rw [show e + 23 + 1 = e + 24 by ring, zpow_add₀ (by norm_num)] at h2
  norm_num at h1 h2
  have hb : |(round (y / 2 ^ e) : ℝ) * 2 ^ e - y| ≤ 2 ^ e / 2 := by
    have := abs_sub_round (y / 2 ^ e)
    rw [abs_sub_comm] at this
    have e1 : (round (y / 2 ^ e) : ℝ) * 2 ^ e - y = ((round (y / 2 ^ e) : ℝ) - y / 2 ^ e) * 2 ^ e := by field_simp
    rw [e1, abs_mul, abs_of_pos hp]
    nlinarith
  have hcast : (((round (y / 2 ^ e) : Int) : ℚ) * 2 ^ e : ℚ) = ((round (y / 2 ^ e) : ℝ) * 2 ^ e : ℝ) := by
    rw [Rat.cast_mul, cast_two_zpow]; push_cast; rfl
  refine ⟨(round (y / 2 ^ e) : Int) * 2 ^ e, ?_, ?_, ?_⟩
  · have hr : |round (y / 2 ^ e)| ≤ 2 ^ 24 := by
      have h3 : |(round (y / 2 ^ e) : ℝ)| < 2 ^ 24 + 1 := by
        have h4 := abs_sub_abs_le_abs_sub (round (y / 2 ^ e) : ℝ) (y / 2 ^ e)
        have h5 := abs_sub_round (y / 2 ^ e)
        rw [abs_sub_comm] at h5
        have h6 : |y / 2 ^ e| < 2 ^ 24 := by rw [abs_div, abs_of_pos hp, div_lt_iff₀ hp]; norm_num; linarith
        linarith
      have h4 : ((|round (y / 2 ^ e)| : Int) : ℝ) < ((2 ^ 24 + 1 : Int) : ℝ) := by push_cast; norm_num at h3 ⊢; exact h3
      have := Int.cast_lt.1 h4
      omega
    rcases hr.lt_or_eq with h | h
    · exact ⟨_, e, h, rfl⟩
    · rcases abs_choice (round (y / 2 ^ e)) with h3 | h3 <;> rw [h3] at h
      · refine ⟨2 ^ 23, e + 1, by norm_num, ?_⟩
        rw [h, zpow_add_one₀ (by norm_num)]; push_cast; ring
      · refine ⟨-2 ^ 23, e + 1, by norm_num, ?_⟩
        rw [show round (y / 2 ^ e) = -2 ^ 24 by omega, zpow_add_one₀ (by norm_num)]; push_cast; ring
  · rintro f ⟨k, ex, hk, rfl⟩
    rw [hcast]
    -- all multiples of the last bit are at least as far away
    have hmul : ∀ n : Int, |(round (y / 2 ^ e) : ℝ) * 2 ^ e - y| ≤ |(n : ℝ) * 2 ^ e - y| := by
      intro n
      have h3 := round_le (y / 2 ^ e) n
      rw [abs_sub_comm, abs_sub_comm (y / 2 ^ e)] at h3
      have e1 : ∀ a : ℝ, a * 2 ^ e - y = (a - y / 2 ^ e) * 2 ^ e := fun a => by field_simp
      rw [e1, e1, abs_mul, abs_mul]
      gcongr
    rcases le_or_gt e ex with hle | hlt
    · obtain ⟨m, rfl⟩ : ∃ m : Nat, ex = e + m := ⟨(ex - e).toNat, by omega⟩
      refine (hmul (k * 2 ^ m)).trans_eq ?_
      rw [Rat.cast_mul, cast_two_zpow, zpow_add₀ (by norm_num), zpow_natCast]
      push_cast
      congr 1; ring
    · have hf : |((k : ℚ) * 2 ^ ex : ℚ)| < 2 ^ 23 * 2 ^ e := by
        have h3 : (|k| : ℚ) < 2 ^ 24 := by exact_mod_cast hk
        have h4 : (2 : ℚ) ^ ex ≤ 2 ^ (e - 1) := zpow_le_zpow_right₀ (by norm_num) (by omega)
        rw [zpow_sub_one₀ (by norm_num)] at h4
        have h5 := two_zpow_pos ex
        rw [abs_mul, abs_of_pos h5]
        nlinarith [abs_nonneg (k : ℚ)]
      have hf' : |(((k : ℚ) * 2 ^ ex : ℚ) : ℝ)| < 2 ^ 23 * 2 ^ e := by
        have := (Rat.cast_lt (K := ℝ)).2 hf
        rw [Rat.cast_abs, Rat.cast_mul (2 ^ 23), cast_two_zpow] at this
        push_cast at this ⊢; exact this
      generalize (((k : ℚ) * 2 ^ ex : ℚ) : ℝ) = f at hf'
      have h6 := abs_sub_abs_le_abs_sub y f
      rw [abs_sub_comm y f] at h6
      rcases abs_choice y with h3 | h3
      · have h7 := hmul (2 ^ 23)
        rw [h3] at h1 h6
        rw [abs_sub_comm (((2 ^ 23 : Int) : ℝ) * 2 ^ e), abs_of_nonneg (a := y - _) (by push_cast; linarith)] at h7
        push_cast at h7
        linarith
      · have h7 := hmul (-2 ^ 23)
        rw [h3] at h1 h6
        rw [abs_of_nonneg (a := ((-2 ^ 23 : Int) : ℝ) * _ - y) (by push_cast; linarith)] at h7
        push_cast at h7
        linarith
  · rw [hcast]
    refine hb.trans ?_
    rw [le_div_iff₀ (by norm_num)]
    linarith

/-- The closest single precision number meets what is assumed of the logarithm. -/
theorem _root_.Wavemap.IsNearest.isLog2 {log2 : ℚ → ℝ} (hn : IsNearest log2) : IsLog2 log2 := by
  have hint : ∀ k : Int, |k| ≤ 150 → IsFloat (k : ℚ) := fun k h => isFloat_int (lt_of_le_of_lt h (by norm_num))
  have ge : ∀ x (k : Int), InSingleRange x → |k| ≤ 150 → 2 ^ k ≤ x → (k : ℝ) ≤ log2 x := by
    intro x k hx hk h
    obtain ⟨z, -, e, hz⟩ := hn x hx
    rw [e]
    have h1 := hz k (hint k hk)
    have h2 := (le_logb_iff hx.pos k).2 h
    by_contra hcon
    push Not at hcon
    rw [abs_of_neg (by linarith), abs_of_nonpos (by push_cast; linarith)] at h1
    push_cast at h1
    linarith
  have le : ∀ x (k : Int), InSingleRange x → |k| ≤ 150 → x ≤ 2 ^ k → log2 x ≤ k := by
    intro x k hx hk h
    obtain ⟨z, -, e, hz⟩ := hn x hx
    rw [e]
    have h1 := hz k (hint k hk)
    have h2 := (logb_le_iff hx.pos k).2 h
    by_contra hcon
    push Not at hcon
    rw [abs_of_pos (by linarith), abs_of_nonneg (by push_cast; linarith)] at h1
    push_cast at h1
    linarith
  refine ⟨fun x k hx h => ?_, fun x k hx h => ?_, fun x hx => ?_⟩
  · by_cases hk : k < -150
    · have h1 := ge x (-150) hx (by norm_num) (le_trans (by norm_num) hx.1)
      have h2 : (k : ℝ) < ((-150 : Int) : ℝ) := Int.cast_lt.2 hk
      linarith
    · refine ge x k hx ?_ h
      have h1 : (2 : ℚ) ^ k ≤ 2 ^ (128 : Int) := h.trans (hx.2.trans (by norm_num))
      have := (zpow_le_zpow_iff_right₀ (by norm_num : (1 : ℚ) < 2)).1 h1
      rw [abs_le]; omega
  · by_cases hk : 150 < k
    · have h1 := le x 128 hx (by norm_num) (hx.2.trans (by norm_num))
      have h2 : ((150 : Int) : ℝ) < k := Int.cast_lt.2 hk
      push_cast at h1 h2
      linarith
    · refine le x k hx ?_ h
      have h1 : (2 : ℚ) ^ (-150 : Int) ≤ 2 ^ k := le_trans (by norm_num) (hx.1.trans h)
      have := (zpow_le_zpow_iff_right₀ (by norm_num : (1 : ℚ) < 2)).1 h1
      rw [abs_le]; omega
  · obtain ⟨z, -, e, hz⟩ := hn x hx
    obtain ⟨z', hf, -, herr⟩ := exists_nearest (Real.logb 2 x)
    rw [e]
    refine (hz z' hf).trans (herr.trans ?_)
    have := abs_nonneg (Real.logb 2 (x : ℝ))
    rw [div_le_div_iff₀ (by norm_num) (by norm_num)]
    nlinarith

end NodeHeight

/-! ## C87 -/

open NodeHeight

/-- C87: with exact arithmetic the height is the smallest one whose nodes are at least as wide as requested. -/
theorem C87_smallest (cellWidth minCellWidth : ℚ) (hc : 0 < cellWidth) (hm : 0 < minCellWidth) :
    ∃ h, heightForWidth id (fun x => Real.logb 2 x) cellWidth minCellWidth = some h ∧ cellWidth ≤ minCellWidth * 2 ^ h ∧
      ∀ k : Int, cellWidth ≤ minCellWidth * 2 ^ k → h ≤ k := by
  have hx : 0 < cellWidth * (1 / minCellWidth) := by positivity
  have key : ∀ k : Int, cellWidth * (1 / minCellWidth) ≤ 2 ^ k ↔ cellWidth ≤ minCellWidth * 2 ^ k := fun k => by
    rw [mul_one_div, div_le_iff₀ hm, mul_comm]
  refine ⟨⌈Real.logb 2 ((cellWidth * (1 / minCellWidth) : ℚ) : ℝ)⌉, by unfold heightForWidth cellWidthToHeight; simp only [id]; rw [if_pos hx], ?_, fun k hk => ?_⟩
  · rw [← key, ← logb_le_iff hx]; exact Int.le_ceil _
  · rw [Int.ceil_le, logb_le_iff hx, key]; exact hk

/-- C87: in single precision, too, the width of the nodes of a height is converted back to this height. -/
theorem C87_roundtrip (log2 : ℚ → ℝ) (hl : IsLog2 log2) (minCellWidth : ℚ) (hm : 0 < minCellWidth) (hf : IsFloat minCellWidth) (height : Nat)
    (hheight : height ≤ 127) : heightForWidth fl log2 (Single.heightToCellWidth minCellWidth height) minCellWidth = some height := by
  unfold heightForWidth cellWidthToHeight
  rw [heightToCellWidth_single _ hf]
  unfold heightToCellWidth
  have e : fl (minCellWidth * (exp2 height : Nat) * fl (1 / minCellWidth)) = fl (minCellWidth * fl (1 / minCellWidth)) * 2 ^ (height : Int) := by
    rw [← fl_mul_zpow, exp2_eq, zpow_natCast]; congr 1; push_cast; ring
  rw [e]
  obtain ⟨h1, h2⟩ := fl_mul_inv hm
  generalize fl (minCellWidth * fl (1 / minCellWidth)) = y at h1 h2
  have hp := two_zpow_pos (height : Int)
  have hx : 0 < y * 2 ^ (height : Int) := mul_pos (by linarith) hp
  rw [if_pos hx]
  congr 1
  rw [Int.ceil_eq_iff]
  have hxr : InSingleRange (y * 2 ^ (height : Int)) := by
    have h3 : (1 : ℚ) ≤ 2 ^ (height : Int) := by rw [zpow_natCast]; exact one_le_pow₀ (by norm_num)
    have h4 : (2 : ℚ) ^ (height : Int) ≤ 2 ^ 128 := by rw [zpow_natCast]; exact pow_le_pow_right₀ (by norm_num) (by omega)
    refine ⟨le_trans (by norm_num) (show (3 / 4 : ℚ) ≤ _ by nlinarith), le_trans (by nlinarith) h4⟩
  refine ⟨?_, hl.le _ _ hxr (by nlinarith)⟩
  have he := hl.err _ hxr
  have hle := (logb_le_iff hx (height : Int)).2 (by nlinarith)
  have hge : (2 * height - 1 : Int) ≤ Real.logb 2 (((y * 2 ^ (height : Int)) ^ 2 : ℚ) : ℝ) := by
    rw [le_logb_iff (by positivity), zpow_sub_one₀ (by norm_num), show (2 : ℤ) * height = height + height by ring, zpow_add₀ (by norm_num)]
    have hy : 9 / 16 ≤ y ^ 2 := by nlinarith
    have := mul_le_mul_of_nonneg_right hy (mul_pos hp hp).le
    rw [mul_pow, sq ((2 : ℚ) ^ (height : Int))]
    linarith [mul_pos hp hp]
  rw [Rat.cast_pow, Real.logb_pow] at hge
  push_cast at hge hle ⊢
  have hh : (height : ℝ) ≤ 127 := by exact_mod_cast hheight
  rw [abs_le] at he
  have : |Real.logb 2 ((y * 2 ^ (height : Int) : ℚ) : ℝ)| ≤ height + 1 := by
    have h0 : (0 : ℝ) ≤ height := Nat.cast_nonneg _
    rw [abs_le]; push_cast; constructor <;> linarith
  obtain ⟨he1, -⟩ := he
  push_cast at he1 this
  have h3 : (height + 1 : ℝ) / 2 ^ 22 < 1 / 4 := by rw [div_lt_iff₀ (by norm_num)]; linarith
  have h4 := div_le_div_of_nonneg_right this (show (0 : ℝ) ≤ 2 ^ 22 by norm_num)
  linarith

/-- C87: in single precision the height is the smallest one whose nodes are as wide as requested, up to a few units in the last place. Missing: nodes may be narrower than requested by this
much (`C87_wide_enough_fails`). -/
theorem C87_smallest_partial (log2 : ℚ → ℝ) (hl : IsLog2 log2) (cellWidth minCellWidth : ℚ) (hc : 0 < cellWidth) (hm : 0 < minCellWidth)
    (hr : 1 / 2 ^ 149 ≤ cellWidth / minCellWidth ∧ cellWidth / minCellWidth ≤ 2 ^ 127) : ∃ h, heightForWidth fl log2 cellWidth minCellWidth = some h ∧
    minCellWidth * 2 ^ (h - 1) < cellWidth * (1 + 1 / 2 ^ 22) ∧ cellWidth ≤ minCellWidth * 2 ^ h * ((1 + (|(h : ℚ)| + 1) / 2 ^ 22) * (1 + 1 / 2 ^ 22)) := by
  unfold heightForWidth cellWidthToHeight
  obtain ⟨δ1, h1, e1⟩ := fl_factor (1 / minCellWidth)
  obtain ⟨δ2, h2, e2⟩ := fl_factor (cellWidth * fl (1 / minCellWidth))
  have hx : fl (cellWidth * fl (1 / minCellWidth)) = cellWidth / minCellWidth * ((1 + δ1) * (1 + δ2)) := by rw [e2, e1]; ring
  generalize fl (cellWidth * fl (1 / minCellWidth)) = x at hx
  rw [abs_le] at h1 h2
  have hlo : 1 - 1 / 2 ^ 23 ≤ (1 + δ1) * (1 + δ2) := by nlinarith
  have hhi : (1 + δ1) * (1 + δ2) ≤ 1 + 1 / 2 ^ 22 := by nlinarith
  generalize (1 + δ1) * (1 + δ2) = δ at hx hlo hhi
  have hq : 0 < cellWidth / minCellWidth := div_pos hc hm
  have hxp : 0 < x := by rw [hx]; exact mul_pos hq (by linarith)
  have hxs : InSingleRange x := by rw [hx]; constructor <;> nlinarith [hr.1, hr.2]
  rw [if_pos hxp]
  refine ⟨⌈log2 x⌉, rfl, ?_⟩
  have he : ((⌈log2 x⌉ : Int) : ℝ) - 1 < log2 x ∧ log2 x ≤ ⌈log2 x⌉ := Int.ceil_eq_iff.1 rfl
  have hh : |⌈log2 x⌉| ≤ 1000000 := by
    rw [abs_le]
    have h3 := hl.ge x (-150) hxs (le_trans (by norm_num) hxs.1)
    have h4 := hl.le x 128 hxs (le_trans hxs.2 (by norm_num))
    constructor
    · exact Int.le_ceil_iff.2 (by push_cast at h3 ⊢; linarith)
    · exact Int.ceil_le.2 (by push_cast at h4 ⊢; linarith)
  generalize ⌈log2 x⌉ = h at he hh
  have hxh : x ≤ 2 ^ h * (1 + (|(h : ℚ)| + 1) / 2 ^ 22) := by
    by_cases hlt : x ≤ 2 ^ h
    · have := two_zpow_pos h
      have h0 : 0 ≤ (|(h : ℚ)| + 1) / 2 ^ 22 := by positivity
      nlinarith
    · push Not at hlt
      have hle := hl.ge x h hxs hlt.le
      have heq : log2 x = h := le_antisymm he.2 hle
      have herr := hl.err x hxs
      rw [heq] at herr
      have hlog : (h : ℝ) ≤ Real.logb 2 x := (le_logb_iff hxp h).2 hlt.le
      rw [abs_sub_comm, abs_of_nonneg (by linarith)] at herr
      have habs : |Real.logb 2 (x : ℝ)| ≤ |(h : ℝ)| + |Real.logb 2 (x : ℝ) - h| := by
        have := abs_add_le (h : ℝ) (Real.logb 2 (x : ℝ) - h)
        rwa [add_sub_cancel] at this
      rw [abs_of_nonneg (by linarith : 0 ≤ Real.logb 2 (x : ℝ) - h)] at habs
      have hhr : |(h : ℝ)| ≤ 1000000 := by exact_mod_cast hh
      have hxr : (0 : ℝ) < x := by exact_mod_cast hxp
      have ht : Real.logb 2 (x : ℝ) - h ≤ (|(h : ℝ)| + 1) / 2 ^ 22 := by
        rw [le_div_iff₀ (by norm_num)] at herr ⊢
        have h0 := abs_nonneg (h : ℝ)
        nlinarith
      have ht1 : (|(h : ℝ)| + 1) / 2 ^ 22 ≤ 1 := by rw [div_le_one (by norm_num)]; linarith
      have hpow : (x : ℝ) = 2 ^ h * (2 : ℝ) ^ (Real.logb 2 (x : ℝ) - h) := by
        rw [← Real.rpow_intCast, ← Real.rpow_add (by norm_num), add_sub_cancel, Real.rpow_logb (by norm_num) (by norm_num) hxr]
      have hbern := rpow_one_add_le_one_add_mul_self (s := 1) (by norm_num) (show 0 ≤ Real.logb 2 (x : ℝ) - h by linarith) (by linarith)
      rw [show (1 + 1 : ℝ) = 2 by norm_num, mul_one] at hbern
      have hfin : (x : ℝ) ≤ 2 ^ h * (1 + (|(h : ℝ)| + 1) / 2 ^ 22) := by
        rw [hpow]
        have : (0 : ℝ) < 2 ^ h := by positivity
        gcongr
        linarith
      have hcast : ((2 ^ h * (1 + (|(h : ℚ)| + 1) / 2 ^ 22) : ℚ) : ℝ) = 2 ^ h * (1 + (|(h : ℝ)| + 1) / 2 ^ 22) := by
        rw [Rat.cast_mul, cast_two_zpow]; push_cast; rfl
      rw [← hcast] at hfin
      exact Rat.cast_le.1 hfin
  constructor
  · have hgt : 2 ^ (h - 1) < x := by
      by_contra hcon
      have := hl.le x (h - 1) hxs (not_lt.1 hcon)
      push_cast at this
      linarith [he.1]
    rw [hx] at hgt
    have : (2 : ℚ) ^ (h - 1) < cellWidth / minCellWidth * (1 + 1 / 2 ^ 22) := lt_of_lt_of_le hgt (by gcongr)
    rw [div_mul_eq_mul_div, lt_div_iff₀ hm] at this
    linarith
  · rw [hx] at hxh
    have hb : cellWidth / minCellWidth * (1 - 1 / 2 ^ 23) ≤ 2 ^ h * (1 + (|(h : ℚ)| + 1) / 2 ^ 22) := le_trans (by gcongr) hxh
    have h0 : 0 ≤ (|(h : ℚ)| + 1) / 2 ^ 22 := by positivity
    have hp := two_zpow_pos h
    have hB : 0 ≤ 2 ^ h * (1 + (|(h : ℚ)| + 1) / 2 ^ 22) := by positivity
    have e : minCellWidth * 2 ^ h * ((1 + (|(h : ℚ)| + 1) / 2 ^ 22) * (1 + 1 / 2 ^ 22)) = minCellWidth * (2 ^ h * (1 + (|(h : ℚ)| + 1) / 2 ^ 22) * (1 + 1 / 2 ^ 22)) := by ring
    rw [e, ← div_le_iff₀' hm]
    generalize 2 ^ h * (1 + (|(h : ℚ)| + 1) / 2 ^ 22) = B at hb hB
    generalize cellWidth / minCellWidth = Q at hb hq
    nlinarith

/-- C87 does not hold in full in single precision: with cells of 1 m, nodes of at least 16.000002 m are requested, but the height found is that of nodes of 16 m. -/
theorem C87_wide_enough_fails (log2 : ℚ → ℝ) (hn : IsNearest log2) :
    heightForWidth fl log2 (16 + 1 / 2 ^ 19) 1 = some 4 ∧ Single.heightToCellWidth 1 4 < 16 + 1 / 2 ^ 19 ∧ IsFloat (16 + 1 / 2 ^ 19) := by
  have hf : IsFloat (16 + 1 / 2 ^ 19) := ⟨8388609, -19, by norm_num, by norm_num⟩
  have hx : fl ((16 + 1 / 2 ^ 19) * fl (1 / 1)) = 16 + 1 / 2 ^ 19 := by
    rw [show fl (1 / 1) = 1 by decide +kernel, mul_one, fl_of_isFloat hf]
  refine ⟨?_, by decide +kernel, hf⟩
  unfold heightForWidth cellWidthToHeight
  rw [hx, if_pos (by norm_num)]
  congr 1
  obtain ⟨z, hz, e, hnear⟩ := hn (16 + 1 / 2 ^ 19) (by constructor <;> norm_num)
  have hge := hn.isLog2.ge (16 + 1 / 2 ^ 19) 4 (by constructor <;> norm_num) (by norm_num)
  rw [e] at hge ⊢
  have hge' : (4 : ℚ) ≤ z := by exact_mod_cast hge
  have hlog : Real.logb 2 ((16 + 1 / 2 ^ 19 : ℚ) : ℝ) < 4 + 1 / 2 ^ 22 := by
    have e1 : ((16 + 1 / 2 ^ 19 : ℚ) : ℝ) = 2 ^ 4 * (1 + 1 / 2 ^ 23) := by push_cast; norm_num
    rw [e1, Real.logb_mul (by norm_num) (by norm_num), Real.logb_pow, Real.logb_self_eq_one (by norm_num), Real.logb]
    have h1 := Real.log_le_sub_one_of_pos (show (0 : ℝ) < 1 + 1 / 2 ^ 23 by norm_num)
    have h2 := Real.log_two_gt_d9
    have h3 : Real.log (1 + 1 / 2 ^ 23) / Real.log 2 < 1 / 2 ^ 22 := by
      rw [div_lt_iff₀ (by linarith)]; linarith
    push_cast
    linarith
  have hlog4 : (4 : ℝ) ≤ Real.logb 2 ((16 + 1 / 2 ^ 19 : ℚ) : ℝ) := by
    have := (le_logb_iff (x := 16 + 1 / 2 ^ 19) (by norm_num) 4).2 (by norm_num)
    exact_mod_cast this
  have h4 := hnear 4 ⟨4, 0, by norm_num, by norm_num⟩
  have hzlt : (z : ℝ) < 4 + 1 / 2 ^ 21 := by
    have := abs_le.1 (h4.trans (by rw [abs_le]; constructor <;> (push_cast; linarith) : |((4 : ℚ) : ℝ) - Real.logb 2 ((16 + 1 / 2 ^ 19 : ℚ) : ℝ)| ≤ Real.logb 2 ((16 + 1 / 2 ^ 19 : ℚ) : ℝ) - 4))
    linarith [this.2]
  have hzlt' : z < 4 + 1 / 2 ^ 21 := by
    have : (z : ℝ) < ((4 + 1 / 2 ^ 21 : ℚ) : ℝ) := by push_cast; linarith
    exact Rat.cast_lt.1 this
  have hz4 : z = 4 := by
    have h0 : z = fl z := (fl_of_isFloat hz).symm
    rcases hge'.lt_or_eq with hgt | heq
    · exfalso
      obtain ⟨k, ex, hk, rfl⟩ := hz
      have hp := two_zpow_pos ex
      have hex : -22 < ex := by
        by_contra hcon
        have h1 : (2 : ℚ) ^ ex ≤ 2 ^ (-22 : Int) := zpow_le_zpow_right₀ (by norm_num) (by omega)
        have h2 : (k : ℚ) < 2 ^ 24 := by exact_mod_cast (abs_lt.1 hk).2
        have h3 : (k : ℚ) * 2 ^ ex < 2 ^ 24 * 2 ^ ex := by gcongr
        have h4 : (2 : ℚ) ^ 24 * 2 ^ ex ≤ 2 ^ 24 * 2 ^ (-22 : Int) := by gcongr
        norm_num at h4 h3
        linarith
      obtain ⟨m, hm⟩ : ∃ m : Nat, ex = -21 + m := ⟨(ex + 21).toNat, by omega⟩
      rw [hm, zpow_add₀ (by norm_num), zpow_natCast] at hgt hzlt'
      have a1 : ((2 ^ 23 : Int) : ℚ) < ((k * 2 ^ m : Int) : ℚ) := by push_cast; norm_num at hgt ⊢; linarith
      have a2 : ((k * 2 ^ m : Int) : ℚ) < ((2 ^ 23 + 1 : Int) : ℚ) := by push_cast; norm_num at hzlt' ⊢; linarith
      have a1' : (2 ^ 23 : Int) < k * 2 ^ m := by exact_mod_cast a1
      have a2' : k * 2 ^ m < 2 ^ 23 + 1 := by exact_mod_cast a2
      omega
    · exact heq.symm
  rw [hz4]
  norm_num

/-- C87 does not hold for the width of a node's bounding box: that of the cell with index 5 on a grid of 0.1 m is converted to height 1, although the cell has height 0. -/
theorem C87_box_fails (log2 : ℚ → ℝ) (hl : IsLog2 log2) :
    heightForWidth fl log2 (Single.nodeAabbWidth (⟨0, fun _ => 5⟩ : NdtreeIndex 3) (fl (1 / 10)) 0) (fl (1 / 10)) = some 1 := by
  have hx : fl (Single.nodeAabbWidth (⟨0, fun _ => 5⟩ : NdtreeIndex 3) (fl (1 / 10)) 0 * fl (1 / fl (1 / 10))) = 1 + 1 / 2 ^ 22 := by decide +kernel
  unfold heightForWidth cellWidthToHeight
  rw [hx, if_pos (by norm_num)]
  congr 1
  rw [Int.ceil_eq_iff]
  have hle := hl.le (1 + 1 / 2 ^ 22) 1 (by constructor <;> norm_num) (by norm_num)
  refine ⟨?_, by exact_mod_cast hle⟩
  have herr := hl.err (1 + 1 / 2 ^ 22) (by constructor <;> norm_num)
  have hpos : 0 < Real.logb 2 ((1 + 1 / 2 ^ 22 : ℚ) : ℝ) := Real.logb_pos (by norm_num) (by push_cast; norm_num)
  rw [abs_of_pos hpos] at herr
  have := (abs_le.1 herr).1
  norm_num at this ⊢
  linarith

/-- C87: heights below zero, which no map has, are returned for nodes narrower than a cell: half a metre on a grid of a metre. -/
theorem C87_negative_fails : heightForWidth id (fun x => Real.logb 2 x) (1 / 2) 1 = some (-1) := by
  obtain ⟨h, e, h1, h2⟩ := C87_smallest (1 / 2) 1 (by norm_num) (by norm_num)
  rw [e]
  congr 1
  refine le_antisymm (h2 (-1) (by norm_num)) ?_
  by_contra hcon
  have : (2 : ℚ) ^ h ≤ 2 ^ (-2 : Int) := zpow_le_zpow_right₀ (by norm_num) (by omega)
  norm_num at this h1
  linarith

/-- C87: the result is not defined when no width is requested. -/
theorem C87_zero_fails (log2 : ℚ → ℝ) (minCellWidth : ℚ) : heightForWidth fl log2 0 minCellWidth = none := by
  unfold heightForWidth cellWidthToHeight
  rw [zero_mul, fl_zero, if_neg (lt_irrefl _)]

/-- The assumptions on the logarithm can be met: by the exact one, and by the closest single precision number. -/
theorem exact_isLog2 : IsLog2 fun x => Real.logb 2 x where
  ge x k hx h := (le_logb_iff hx.pos k).2 h
  le x k hx h := (logb_le_iff hx.pos k).2 h
  err x hx := by simp; positivity

example : ∃ log2, IsNearest log2 ∧ IsLog2 log2 := by
  choose z hz hz' using fun x : ℚ => exists_nearest (Real.logb 2 x)
  have : IsNearest fun x => z x := fun x _ => ⟨z x, hz x, rfl, (hz' x).1⟩
  exact ⟨_, this, this.isLog2⟩

/-- Nodes of 0.8 m on a grid of 0.1 m have height 3. -/
example : heightForWidth fl (fun x => Real.logb 2 x) (Single.heightToCellWidth (fl (1 / 10)) 3) (fl (1 / 10)) = some 3 ∧ Single.heightToCellWidth (fl (1 / 10)) 3 = fl (8 / 10) :=
  ⟨C87_roundtrip _ exact_isLog2 _ (by decide +kernel) (isFloat_fl _) 3 (by norm_num), by decide +kernel⟩

end Wavemap
