import Verif.Model.Float32
import Mathlib.Tactic.Linarith
import Mathlib.Tactic.NormNum
import Mathlib.Tactic.Ring
import Mathlib.Tactic.FieldSimp
import Mathlib.Tactic.Positivity
import Mathlib.Algebra.Order.Round
/-!
# Rounding to single precision
-/
namespace Wavemap

theorem roundTiesToEven_err (x : ℚ) : |(roundTiesToEven x : ℚ) - x| ≤ 1 / 2 := by
  have h1 := Int.floor_le x
  have h2 := Int.lt_floor_add_one x
  unfold roundTiesToEven
  rw [abs_le]
  split_ifs <;> push_cast <;> constructor <;> linarith

theorem roundTiesToEven_int (k : Int) : roundTiesToEven k = k := by
  unfold roundTiesToEven
  rw [if_pos (by rw [Int.floor_intCast]; simp), Int.floor_intCast]

theorem roundTiesToEven_mono {x y : ℚ} (h : x ≤ y) : roundTiesToEven x ≤ roundTiesToEven y := by
  have hx := Int.floor_le x
  have hx' := Int.lt_floor_add_one x
  have hy := Int.floor_le y
  have hy' := Int.lt_floor_add_one y
  have hf : ⌊x⌋ ≤ ⌊y⌋ := Int.floor_le_floor h
  unfold roundTiesToEven
  by_cases e : ⌊x⌋ = ⌊y⌋
  · rw [← e]
    have : x - ⌊x⌋ ≤ y - ⌊x⌋ := by linarith
    split_ifs <;> first | omega | (exfalso; linarith)
  · have : ⌊x⌋ + 1 ≤ ⌊y⌋ := by omega
    split_ifs <;> omega

theorem roundTiesToEven_neg (x : ℚ) : roundTiesToEven (-x) = -roundTiesToEven x := by
  by_cases hi : x = ⌊x⌋
  · rw [hi, ← Int.cast_neg, roundTiesToEven_int, roundTiesToEven_int]
  · have hx := Int.floor_le x
    have hx' := Int.lt_floor_add_one x
    have hlt : (⌊x⌋ : ℚ) < x := lt_of_le_of_ne hx (fun e => hi e.symm)
    have hf : ⌊-x⌋ = -⌊x⌋ - 1 := by
      rw [Int.floor_eq_iff]
      push_cast
      constructor <;> linarith
    unfold roundTiesToEven
    rw [hf]
    push_cast
    split_ifs <;> first | omega | (exfalso; linarith)

theorem two_zpow_pos (e : Int) : (0 : ℚ) < 2 ^ e := zpow_pos (by norm_num) e

/-- The significand of a number that is not zero. -/
theorem lastBit_bounds {x : ℚ} (hx : x ≠ 0) : 2 ^ 23 ≤ |x / 2 ^ lastBit x| ∧ |x / 2 ^ lastBit x| < 2 ^ 24 := by
  have h0 : 0 < |x| := abs_pos.2 hx
  have h1 : (2 : ℚ) ^ Int.log 2 |x| ≤ |x| := by exact_mod_cast Int.zpow_log_le_self (b := 2) (by norm_num) h0
  have h2 : |x| < (2 : ℚ) ^ (Int.log 2 |x| + 1) := by exact_mod_cast Int.lt_zpow_succ_log_self (b := 2) (by norm_num) |x|
  have hp := two_zpow_pos (lastBit x)
  rw [abs_div, abs_of_pos hp, le_div_iff₀ hp, div_lt_iff₀ hp]
  have e1 : (2 : ℚ) ^ 23 * 2 ^ lastBit x = 2 ^ Int.log 2 |x| := by
    rw [← zpow_natCast, ← zpow_add₀ (by norm_num)]
    congr 1; unfold lastBit; push_cast; ring
  have e2 : (2 : ℚ) ^ 24 * 2 ^ lastBit x = 2 ^ (Int.log 2 |x| + 1) := by
    rw [← zpow_natCast, ← zpow_add₀ (by norm_num)]
    congr 1; unfold lastBit; push_cast; ring
  rw [e1, e2]
  exact ⟨h1, h2⟩

/-- The exponent is determined by the significand. -/
theorem lastBit_unique {x : ℚ} (hx : x ≠ 0) {e : Int} (h1 : 2 ^ 23 ≤ |x / 2 ^ e|) (h2 : |x / 2 ^ e| < 2 ^ 24) : lastBit x = e := by
  obtain ⟨a1, a2⟩ := lastBit_bounds hx
  have hp := two_zpow_pos (lastBit x)
  have hq := two_zpow_pos e
  rw [abs_div, abs_of_pos hp] at a1 a2
  rw [abs_div, abs_of_pos hq] at h1 h2
  rw [le_div_iff₀ hp] at a1
  rw [div_lt_iff₀ hp] at a2
  rw [le_div_iff₀ hq] at h1
  rw [div_lt_iff₀ hq] at h2
  have key : ∀ a b : Int, (2 : ℚ) ^ 23 * 2 ^ a < 2 ^ 24 * 2 ^ b → a ≤ b := by
    intro a b h
    have : (2 : ℚ) ^ a < 2 ^ (b + 1) := by rw [zpow_add₀ (by norm_num), zpow_one]; linarith
    have := (zpow_lt_zpow_iff_right₀ (by norm_num : (1 : ℚ) < 2)).1 this
    omega
  have := key _ _ (lt_of_le_of_lt a1 h2)
  have := key _ _ (lt_of_le_of_lt h1 a2)
  omega

theorem fl_zero : fl 0 = 0 := by simp [fl]

theorem fl_of_ne {x : ℚ} (h : x ≠ 0) : fl x = roundTiesToEven (x / 2 ^ lastBit x) * 2 ^ lastBit x := by
  unfold fl; rw [if_neg h]

/-- The relative error of rounding. -/
theorem fl_err (x : ℚ) : |fl x - x| ≤ |x| / 2 ^ 24 := by
  by_cases h : x = 0
  · subst h; simp [fl_zero]
  · have hp := two_zpow_pos (lastBit x)
    have h1 := roundTiesToEven_err (x / 2 ^ lastBit x)
    have e : fl x - x = (roundTiesToEven (x / 2 ^ lastBit x) - x / 2 ^ lastBit x) * 2 ^ lastBit x := by
      rw [fl_of_ne h, sub_mul, div_mul_cancel₀ _ hp.ne']
    rw [e, abs_mul, abs_of_pos hp]
    have h2 := (lastBit_bounds h).1
    rw [abs_div, abs_of_pos hp, le_div_iff₀ hp] at h2
    have : |(roundTiesToEven (x / 2 ^ lastBit x) : ℚ) - x / 2 ^ lastBit x| * 2 ^ lastBit x ≤ 1 / 2 * 2 ^ lastBit x :=
      mul_le_mul_of_nonneg_right h1 hp.le
    rw [le_div_iff₀ (by norm_num)]
    nlinarith

/-- Rounding changes a number by a factor close to one. -/
theorem fl_factor (x : ℚ) : ∃ δ : ℚ, |δ| ≤ 1 / 2 ^ 24 ∧ fl x = x * (1 + δ) := by
  by_cases h : x = 0
  · exact ⟨0, by norm_num, by rw [h, fl_zero]; ring⟩
  · refine ⟨(fl x - x) / x, ?_, by field_simp; ring⟩
    rw [abs_div, div_le_iff₀ (abs_pos.2 h)]
    have := fl_err x
    rw [div_mul_eq_mul_div, one_mul]
    exact this

theorem fl_neg (x : ℚ) : fl (-x) = -fl x := by
  by_cases h : x = 0
  · subst h; simp [fl_zero]
  · have hn : -x ≠ 0 := neg_ne_zero.2 h
    have e : lastBit (-x) = lastBit x := by unfold lastBit; rw [abs_neg]
    rw [fl_of_ne h, fl_of_ne hn, e, neg_div, roundTiesToEven_neg]
    push_cast; ring

/-- Scaling by a power of two commutes with rounding. -/
theorem fl_mul_zpow (x : ℚ) (n : Int) : fl (x * 2 ^ n) = fl x * 2 ^ n := by
  by_cases h : x = 0
  · subst h; simp [fl_zero]
  · have hn := two_zpow_pos n
    have hp := two_zpow_pos (lastBit x)
    have h' : x * 2 ^ n ≠ 0 := mul_ne_zero h hn.ne'
    have hd : x * 2 ^ n / 2 ^ (lastBit x + n) = x / 2 ^ lastBit x := by
      rw [zpow_add₀ (by norm_num)]
      field_simp
    have e : lastBit (x * 2 ^ n) = lastBit x + n := by
      obtain ⟨a, b⟩ := lastBit_bounds h
      exact lastBit_unique h' (by rw [hd]; exact a) (by rw [hd]; exact b)
    rw [fl_of_ne h, fl_of_ne h', e, hd, zpow_add₀ (by norm_num)]
    ring

/-- Numbers that can be represented are not changed. -/
theorem fl_of_isFloat {x : ℚ} (h : IsFloat x) : fl x = x := by
  obtain ⟨k, e, hk, rfl⟩ := h
  rw [fl_mul_zpow]
  congr 1
  by_cases h0 : k = 0
  · subst h0; simp [fl_zero]
  · have h0' : (k : ℚ) ≠ 0 := by exact_mod_cast h0
    have hle : lastBit (k : ℚ) ≤ 0 := by
      by_contra hc
      have hp := two_zpow_pos (lastBit (k : ℚ))
      obtain ⟨a, -⟩ := lastBit_bounds h0'
      rw [abs_div, abs_of_pos hp, le_div_iff₀ hp] at a
      have : (2 : ℚ) ^ (1 : Int) ≤ 2 ^ lastBit (k : ℚ) := zpow_le_zpow_right₀ (by norm_num) (by omega)
      rw [zpow_one] at this
      have hk' : |(k : ℚ)| < 2 ^ 24 := by exact_mod_cast hk
      nlinarith
    obtain ⟨n, hn⟩ : ∃ n : Nat, lastBit (k : ℚ) = -(n : Int) := ⟨(-lastBit (k : ℚ)).toNat, by omega⟩
    rw [fl_of_ne h0', hn]
    have : (k : ℚ) / 2 ^ (-(n : Int)) = ((k * 2 ^ n : Int) : ℚ) := by
      rw [zpow_neg, zpow_natCast, div_inv_eq_mul]; push_cast; ring
    rw [this, roundTiesToEven_int]
    push_cast
    rw [zpow_neg, zpow_natCast]
    field_simp

/-- The result of rounding can be represented. -/
theorem isFloat_fl (x : ℚ) : IsFloat (fl x) := by
  by_cases h : x = 0
  · subst h; exact ⟨0, 0, by norm_num, by simp [fl_zero]⟩
  · obtain ⟨-, h2⟩ := lastBit_bounds h
    have h1 : |roundTiesToEven (x / 2 ^ lastBit x)| ≤ 2 ^ 24 := by
      rw [abs_lt] at h2
      rw [abs_le]
      have a := roundTiesToEven_mono h2.2.le
      have b := roundTiesToEven_mono h2.1.le
      rw [show ((2 : ℚ) ^ 24) = ((2 ^ 24 : Int) : ℚ) by norm_num, roundTiesToEven_int] at a
      rw [show (-(2 : ℚ) ^ 24) = ((-(2 ^ 24) : Int) : ℚ) by norm_num, roundTiesToEven_int] at b
      exact ⟨b, a⟩
    rw [fl_of_ne h]
    generalize roundTiesToEven (x / 2 ^ lastBit x) = k at h1
    by_cases hk : |k| = 2 ^ 24
    · rcases abs_eq (by norm_num : (0 : Int) ≤ 2 ^ 24) |>.1 hk with e | e
      · refine ⟨2 ^ 23, lastBit x + 1, by norm_num, ?_⟩
        rw [e, zpow_add₀ (by norm_num), zpow_one]; push_cast; ring
      · refine ⟨-2 ^ 23, lastBit x + 1, by norm_num, ?_⟩
        rw [e, zpow_add₀ (by norm_num), zpow_one]; push_cast; ring
    · exact ⟨k, lastBit x, lt_of_le_of_ne h1 hk, rfl⟩

theorem fl_fl (x : ℚ) : fl (fl x) = fl x := fl_of_isFloat (isFloat_fl x)

theorem IsFloat.neg {x : ℚ} (h : IsFloat x) : IsFloat (-x) := by
  obtain ⟨k, e, hk, rfl⟩ := h
  exact ⟨-k, e, by rwa [abs_neg], by push_cast; ring⟩

theorem IsFloat.mul_zpow {x : ℚ} (h : IsFloat x) (n : Int) : IsFloat (x * 2 ^ n) := by
  obtain ⟨k, e, hk, rfl⟩ := h
  exact ⟨k, e + n, hk, by rw [zpow_add₀ (by norm_num)]; ring⟩

theorem IsFloat.div_pow {x : ℚ} (h : IsFloat x) (n : Nat) : IsFloat (x / 2 ^ n) := by
  have := h.mul_zpow (-(n : Int))
  rwa [zpow_neg, zpow_natCast, ← div_eq_mul_inv] at this

theorem isFloat_int {k : Int} (h : |k| < 2 ^ 24) : IsFloat (k : ℚ) := ⟨k, 0, h, by simp⟩

theorem isFloat_zero : IsFloat 0 := ⟨0, 0, by norm_num, by simp⟩

/-- Rounding is monotone. -/
theorem fl_mono {x y : ℚ} (h : x ≤ y) : fl x ≤ fl y := by
  -- for positive numbers
  have pos : ∀ {x y : ℚ}, 0 < x → x ≤ y → fl x ≤ fl y := by
    intro x y hx hxy
    have hy : 0 < y := lt_of_lt_of_le hx hxy
    have hpx := two_zpow_pos (lastBit x)
    have hpy := two_zpow_pos (lastBit y)
    obtain ⟨a1, a2⟩ := lastBit_bounds hx.ne'
    obtain ⟨b1, b2⟩ := lastBit_bounds hy.ne'
    rw [abs_of_pos (div_pos hx hpx)] at a1 a2
    rw [abs_of_pos (div_pos hy hpy)] at b1 b2
    rw [fl_of_ne hx.ne', fl_of_ne hy.ne']
    have hle : lastBit x ≤ lastBit y := by
      by_contra hc
      have : (2 : ℚ) ^ (lastBit y + 1) ≤ 2 ^ lastBit x := zpow_le_zpow_right₀ (by norm_num) (by omega)
      rw [zpow_add₀ (by norm_num), zpow_one] at this
      rw [le_div_iff₀ hpx] at a1
      rw [div_lt_iff₀ hpy] at b2
      nlinarith
    rcases hle.lt_or_eq with hlt | he
    · have u : (roundTiesToEven (x / 2 ^ lastBit x) : ℚ) ≤ 2 ^ 24 := by
        have := roundTiesToEven_mono a2.le
        rw [show ((2 : ℚ) ^ 24) = ((2 ^ 24 : Int) : ℚ) by norm_num, roundTiesToEven_int] at this
        exact_mod_cast this
      have v : (2 : ℚ) ^ 23 ≤ roundTiesToEven (y / 2 ^ lastBit y) := by
        have := roundTiesToEven_mono b1
        rw [show ((2 : ℚ) ^ 23) = ((2 ^ 23 : Int) : ℚ) by norm_num, roundTiesToEven_int] at this
        exact_mod_cast this
      have : (2 : ℚ) ^ (lastBit x + 1) ≤ 2 ^ lastBit y := zpow_le_zpow_right₀ (by norm_num) (by omega)
      rw [zpow_add₀ (by norm_num), zpow_one] at this
      calc (roundTiesToEven (x / 2 ^ lastBit x) : ℚ) * 2 ^ lastBit x ≤ 2 ^ 24 * 2 ^ lastBit x := mul_le_mul_of_nonneg_right u hpx.le
        _ = 2 ^ 23 * (2 ^ lastBit x * 2) := by ring
        _ ≤ 2 ^ 23 * 2 ^ lastBit y := mul_le_mul_of_nonneg_left this (by norm_num)
        _ ≤ _ := mul_le_mul_of_nonneg_right v hpy.le
    · rw [he]
      refine mul_le_mul_of_nonneg_right ?_ hpy.le
      exact_mod_cast roundTiesToEven_mono (div_le_div_of_nonneg_right hxy hpy.le)
  have fpos : ∀ {x : ℚ}, 0 ≤ x → 0 ≤ fl x := by
    intro x hx
    have := fl_err x
    rw [abs_le, abs_of_nonneg hx] at this
    have : x / 2 ^ 24 ≤ x := by
      rw [div_le_iff₀ (by norm_num)]; nlinarith
    linarith
  rcases lt_trichotomy 0 x with hx | hx | hx
  · exact pos hx h
  · rw [← hx, fl_zero]; exact fpos (hx ▸ h)
  · rcases le_or_gt 0 y with hy | hy
    · have := fpos (x := -x) (by linarith)
      rw [fl_neg] at this
      have := fpos hy
      linarith
    · have := pos (x := -y) (y := -x) (by linarith) (by linarith)
      rw [fl_neg, fl_neg] at this
      linarith

/-- How to compute a rounded number: `k` is the nearest significand. -/
theorem fl_eq {x : ℚ} {k e : Int} (h1 : 2 ^ 23 ≤ |x / 2 ^ e|) (h2 : |x / 2 ^ e| < 2 ^ 24) (h3 : |x / 2 ^ e - k| < 1 / 2) : fl x = k * 2 ^ e := by
  have hx : x ≠ 0 := by
    rintro rfl
    simp only [zero_div, abs_zero] at h1
    norm_num at h1
  rw [fl_of_ne hx, lastBit_unique hx h1 h2]
  congr 2
  have a := roundTiesToEven_err (x / 2 ^ e)
  rw [abs_le] at a
  rw [abs_lt] at h3
  have h4 : (roundTiesToEven (x / 2 ^ e) : ℚ) < k + 1 := by linarith
  have h5 : (k : ℚ) < roundTiesToEven (x / 2 ^ e) + 1 := by linarith
  have h4 : roundTiesToEven (x / 2 ^ e) < k + 1 := by exact_mod_cast h4
  have h5 : k < roundTiesToEven (x / 2 ^ e) + 1 := by exact_mod_cast h5
  omega

end Wavemap
