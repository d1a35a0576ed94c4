import Mathlib.Tactic.Linarith
import Mathlib.Tactic.NormNum
import Mathlib.Tactic.Ring
import Mathlib.Tactic.FieldSimp
import Mathlib.Tactic.Positivity
import Mathlib.Analysis.SpecialFunctions.Exp
import Mathlib.Analysis.Complex.ExponentialBounds
import Verif.Model.Probability
import Verif.Lemmas.Float32
import Verif.Props.HashedWavelet
/-!
# C82: log odds and probabilities
-/
namespace Wavemap

/-! ## Specification -/

/-- What is assumed of the exponential function in single precision: its results are single precision numbers within one unit in the last place. -/
structure IsExpSingle (expF : ℚ → ℚ) : Prop where
  float : ∀ x, IsFloat (expF x)
  accurate : ∀ x, |(expF x : ℝ) - Real.exp x| ≤ Real.exp x / 2 ^ 23

/-- The best possible exponential function: no single precision number is closer to the exact result. -/
structure IsExpNearest (expF : ℚ → ℚ) : Prop where
  float : ∀ x, IsFloat (expF x)
  nearest : ∀ x y, IsFloat y → |(expF x : ℝ) - Real.exp x| ≤ |(y : ℝ) - Real.exp x|

/-- The odds that belong to a probability. -/
noncomputable def odds (p : ℝ) : ℝ := p / (1 - p)

/-! ## Exact arithmetic -/

/-- Every log odds value has a probability strictly between 0 and 1. -/
theorem C82_range (x : ℝ) : 0 < logOddsToProbability x ∧ logOddsToProbability x < 1 := by
  have h := Real.exp_pos x
  unfold logOddsToProbability
  exact ⟨by positivity, (div_lt_one (by linarith)).2 (by linarith)⟩

theorem odds_probability (x : ℝ) : odds (logOddsToProbability x) = Real.exp x := by
  have h := Real.exp_pos x
  unfold odds logOddsToProbability
  have : 1 - Real.exp x / (1 + Real.exp x) = 1 / (1 + Real.exp x) := by field_simp; ring
  simp only [this]
  field_simp

/-- Converting to a probability and back gives the same log odds. -/
theorem C82_log_odds_round_trip (x : ℝ) : probabilityToLogOdds (logOddsToProbability x) = x := by
  have := odds_probability x
  unfold odds at this
  simp only [probabilityToLogOdds, this, Real.log_exp]

/-- Converting to log odds and back gives the same probability. -/
theorem C82_probability_round_trip (p : ℝ) (h0 : 0 < p) (h1 : p < 1) : logOddsToProbability (probabilityToLogOdds p) = p := by
  have : 0 < 1 - p := by linarith
  unfold logOddsToProbability probabilityToLogOdds
  simp only [Real.exp_log (div_pos h0 this)]
  field_simp
  ring

/-- The conversion preserves the order. -/
theorem C82_order (x y : ℝ) : logOddsToProbability x ≤ logOddsToProbability y ↔ x ≤ y := by
  have hx := Real.exp_pos x
  have hy := Real.exp_pos y
  unfold logOddsToProbability
  rw [div_le_div_iff₀ (by linarith) (by linarith), ← @Real.exp_le_exp x y]
  constructor <;> intro h <;> nlinarith

/-- Classifying by a threshold on the probability or by the corresponding one on the log odds is the same. -/
theorem C82_classify (p x : ℝ) (h0 : 0 < p) (h1 : p < 1) : p ≤ logOddsToProbability x ↔ probabilityToLogOdds p ≤ x := by
  conv_lhs => rw [← C82_probability_round_trip p h0 h1]
  exact C82_order _ _

/-- The prior log odds 0 are the probability one half: occupied is what is at least as likely as not. -/
theorem C82_prior (x : ℝ) : logOddsToProbability 0 = 1 / 2 ∧ (1 / 2 ≤ logOddsToProbability x ↔ 0 ≤ x) := by
  have h : logOddsToProbability 0 = 1 / 2 := by simp [logOddsToProbability]; norm_num
  exact ⟨h, by rw [← h]; exact C82_order _ _⟩

/-- Adding log odds is Bayes' rule for independent measurements and a prior of one half. -/
theorem C82_bayes (x y : ℝ) :
    logOddsToProbability (x + y) =
      logOddsToProbability x * logOddsToProbability y /
        (logOddsToProbability x * logOddsToProbability y + (1 - logOddsToProbability x) * (1 - logOddsToProbability y)) := by
  have hx := Real.exp_pos x
  have hy := Real.exp_pos y
  unfold logOddsToProbability
  simp only [Real.exp_add]
  generalize Real.exp x = a at *
  generalize Real.exp y = b at *
  have e1 : 1 - a / (1 + a) = 1 / (1 + a) := by field_simp; ring
  have e2 : 1 - b / (1 + b) = 1 / (1 + b) := by field_simp; ring
  rw [e1, e2]
  have : a * b + 1 ≠ 0 := by positivity
  field_simp
  ring

/-- The odds of a cell of the map are the product of the odds of all measurements of that cell. -/
theorem C82_evidence (config : HashedWaveletOctreeConfig) (hc : config.isValid = true) (hH : config.treeHeight ≤ 20)
    (ops : List (Index 3 × ℚ × ℚ)) (j : Index 3) :
    let m := ops.foldl (fun m o => m.addToCellValue o.1 o.2.1 o.2.2) (HashedWaveletOctree.create config)
    odds (logOddsToProbability (m.getCellValue j : ℚ)) =
      ((ops.filter fun o => decide (o.1 = j)).map fun o => odds (logOddsToProbability (o.2.1 : ℚ))).prod := by
  intro m
  have h := C18_add_cells config hc hH ops j
  rw [odds_probability]
  change m.getCellValue j = _ at h
  rw [h]
  generalize ops.filter (fun o => decide (o.1 = j)) = l
  induction l with
  | nil => simp
  | cons o l ih =>
    rw [List.map_cons, List.map_cons, List.sum_cons, List.prod_cons, ← ih, odds_probability, ← Real.exp_add]
    push_cast
    rfl

example : HashedWaveletOctreeConfig.isValid ⟨1, -2, 4, 6, 5⟩ = true := by decide +kernel

/-! ## Single precision -/

theorem quotient_bound {P d d1 d2 : ℝ} (hP0 : 0 ≤ P) (hP1 : P ≤ 1) (hd : |d| ≤ 1 / 2 ^ 23) (h1 : |d1| ≤ 1 / 2 ^ 24) (h2 : |d2| ≤ 1 / 2 ^ 24) :
    |(1 + d) * (1 + d2) / ((1 + P * d) * (1 + d1)) - 1| ≤ 1 / 2 ^ 21 := by
  have hPd : |P * d| ≤ 1 / 2 ^ 23 := by
    rw [abs_mul, abs_of_nonneg hP0]; nlinarith [abs_nonneg d]
  generalize P * d = e at hPd
  rw [abs_le] at *
  have hb : (1 - 7 / 2 ^ 25 : ℝ) ≤ (1 + e) * (1 + d1) := by norm_num at *; nlinarith
  have hb' : (1 + e) * (1 + d1) ≤ (1 + 7 / 2 ^ 25 : ℝ) := by norm_num at *; nlinarith
  have ha : (1 - 7 / 2 ^ 25 : ℝ) ≤ (1 + d) * (1 + d2) := by norm_num at *; nlinarith
  have ha' : (1 + d) * (1 + d2) ≤ (1 + 7 / 2 ^ 25 : ℝ) := by norm_num at *; nlinarith
  generalize (1 + e) * (1 + d1) = b at *
  generalize (1 + d) * (1 + d2) = a at *
  have hbp : 0 < b := by norm_num at *; linarith
  constructor
  · rw [neg_le_sub_iff_le_add, ← sub_le_iff_le_add, le_div_iff₀ hbp]; norm_num at *; linarith
  · rw [sub_le_iff_le_add, div_le_iff₀ hbp]; norm_num at *; linarith

/-- The rounding error of the division and the addition, given the odds. -/
theorem single_close {expF : ℚ → ℚ} (h : IsExpSingle expF) (x : ℚ) :
    |(fl (expF x / fl (1 + expF x)) : ℝ) - logOddsToProbability x| ≤ logOddsToProbability x / 2 ^ 21 ∧ 0 < expF x := by
  obtain ⟨d1, hd1, e1⟩ := fl_factor (1 + expF x)
  obtain ⟨d2, hd2, e2⟩ := fl_factor (expF x / fl (1 + expF x))
  have hE := Real.exp_pos (x : ℝ)
  have hacc := h.accurate x
  obtain ⟨hP0, hP1⟩ := C82_range (x : ℝ)
  set E := Real.exp (x : ℝ) with hEdef
  set P := logOddsToProbability (x : ℝ) with hP
  have hPE : P = E / (1 + E) := rfl
  obtain ⟨d, hd, ed⟩ : ∃ d : ℝ, |d| ≤ 1 / 2 ^ 23 ∧ (expF x : ℝ) = E * (1 + d) := by
    refine ⟨(expF x - E) / E, ?_, by field_simp; ring⟩
    rw [abs_div, abs_of_pos hE, div_le_iff₀ hE]
    linarith
  have hd' := abs_le.1 hd
  have ho : (0 : ℝ) < expF x := by
    rw [ed]; exact mul_pos hE (by norm_num at *; linarith)
  have hR1 : |(d1 : ℝ)| ≤ 1 / 2 ^ 24 := by
    have : ((|d1| : ℚ) : ℝ) ≤ ((1 / 2 ^ 24 : ℚ) : ℝ) := by exact_mod_cast hd1
    push_cast at this; exact this
  have hR2 : |(d2 : ℝ)| ≤ 1 / 2 ^ 24 := by
    have : ((|d2| : ℚ) : ℝ) ≤ ((1 / 2 ^ 24 : ℚ) : ℝ) := by exact_mod_cast hd2
    push_cast at this; exact this
  refine ⟨?_, by exact_mod_cast ho⟩
  have e3 : (fl (expF x / fl (1 + expF x)) : ℝ) = P * ((1 + d) * (1 + d2) / ((1 + P * d) * (1 + d1))) := by
    rw [e2, e1]
    push_cast
    rw [ed]
    have hs : 1 + E * (1 + d) = (1 + E) * (1 + P * d) := by rw [hPE]; field_simp; ring
    have h1 : (1 : ℝ) + E ≠ 0 := by positivity
    have hPd : |P * d| ≤ 1 / 2 ^ 23 := by
      rw [abs_mul, abs_of_pos hP0]; nlinarith [abs_nonneg d]
    have h2 : 1 + P * d ≠ 0 := by
      have := abs_le.1 hPd
      norm_num at *; intro h0; linarith
    have h3 : (1 : ℝ) + d1 ≠ 0 := by
      have := abs_le.1 hR1
      norm_num at *; intro h0; linarith
    have hnum : E * (1 + d) = P * (1 + E) * (1 + d) := by rw [hPE]; field_simp
    rw [hs, hnum]
    clear_value P
    field_simp
  rw [e3]
  have hb := quotient_bound hP0.le hP1.le hd hR1 hR2
  have : P * ((1 + d) * (1 + d2) / ((1 + P * d) * (1 + d1))) - P = P * ((1 + d) * (1 + d2) / ((1 + P * d) * (1 + d1)) - 1) := by ring
  rw [this, abs_mul, abs_of_pos hP0]
  calc P * |(1 + d) * (1 + d2) / ((1 + P * d) * (1 + d1)) - 1| ≤ P * (1 / 2 ^ 21) := mul_le_mul_of_nonneg_left hb hP0.le
    _ = P / 2 ^ 21 := by ring

theorem exp_le_max {x : ℝ} (hx : x ≤ 88) : Real.exp x ≤ 2 ^ 127 := by
  have h1 : Real.exp x ≤ Real.exp 1 ^ 88 := by rw [← Real.exp_nat_mul]; exact Real.exp_le_exp.2 (by push_cast; linarith)
  exact h1.trans ((pow_le_pow_left₀ (Real.exp_pos 1).le Real.exp_one_lt_d9.le 88).trans (by norm_num))

/-- In single precision every value up to 88 is converted to a number between 0 and 1 that is correct up to a relative error of `2^-21`. -/
theorem C82_single_partial (expF : ℚ → ℚ) (h : IsExpSingle expF) (x : ℚ) (hx : x ≤ 88) :
    ∃ p, logOddsToProbabilitySingle expF x = some p ∧ 0 < p ∧ p ≤ 1 ∧ |(p : ℝ) - logOddsToProbability x| ≤ logOddsToProbability x / 2 ^ 21 := by
  obtain ⟨hc, ho⟩ := single_close h x
  have hacc := abs_le.1 (h.accurate x)
  have hmax : expF x ≤ maxFloat := by
    have h1 : Real.exp (x : ℝ) ≤ 2 ^ 127 := exp_le_max (by exact_mod_cast hx)
    have h2 : (expF x : ℝ) ≤ ((2 ^ 24 - 1) * 2 ^ 104 : ℝ) := by
      have : (2 : ℝ) ^ 127 + 2 ^ 127 / 2 ^ 23 ≤ (2 ^ 24 - 1) * 2 ^ 104 := by norm_num
      have h3 : Real.exp (x : ℝ) / 2 ^ 23 ≤ 2 ^ 127 / 2 ^ 23 := div_le_div_of_nonneg_right h1 (by norm_num)
      linarith [hacc.2]
    unfold maxFloat; exact_mod_cast h2
  refine ⟨_, if_neg (not_lt.2 hmax), ?_, ?_, hc⟩
  · obtain ⟨hP0, hP1⟩ := C82_range (x : ℝ)
    have := (abs_le.1 hc).1
    have h2 : (0 : ℝ) < fl (expF x / fl (1 + expF x)) := by
      have : logOddsToProbability (x : ℝ) / 2 ^ 21 < logOddsToProbability x := by
        rw [div_lt_iff₀ (by norm_num)]; nlinarith
      linarith
    exact_mod_cast h2
  · have hs : expF x ≤ fl (1 + expF x) := by
      have := fl_mono (show expF x ≤ 1 + expF x by linarith)
      rwa [fl_of_isFloat (h.float x)] at this
    have h1 : expF x / fl (1 + expF x) ≤ 1 := (div_le_one (by linarith)).2 hs
    have := fl_mono h1
    rwa [show fl 1 = 1 from by simpa using fl_of_isFloat (isFloat_int (k := 1) (by norm_num))] at this

/-- Observed cells (at least `kUnobservedThreshold` away from the prior) are classified by the probability like by the log odds, also in single precision. -/
theorem C82_single_classify_partial (expF : ℚ → ℚ) (h : IsExpSingle expF) (x : ℚ) (hx : x ≤ 88) (ho : 1 / 1000 ≤ |x|) :
    ∃ p, logOddsToProbabilitySingle expF x = some p ∧ (1 / 2 ≤ p ↔ 0 ≤ x) := by
  obtain ⟨p, hp, -, -, hc⟩ := C82_single_partial expF h x hx
  refine ⟨p, hp, ?_⟩
  have hc := abs_le.1 hc
  obtain ⟨hP0, hP1⟩ := C82_range (x : ℝ)
  rcases le_or_gt 0 x with h0 | h0
  · rw [abs_of_nonneg h0] at ho
    have hx : (1 / 1000 : ℝ) ≤ (x : ℝ) := by
      have : ((1 / 1000 : ℚ) : ℝ) ≤ x := by exact_mod_cast ho
      push_cast at this; exact this
    have h1 : logOddsToProbability (1 / 1000) ≤ logOddsToProbability x := (C82_order _ _).2 hx
    have h2 : (1 / 2 + 1 / 10000 : ℝ) ≤ logOddsToProbability (1 / 1000) := by
      unfold logOddsToProbability
      have := Real.add_one_le_exp (1 / 1000 : ℝ)
      have he := Real.exp_pos (1 / 1000 : ℝ)
      simp only
      rw [le_div_iff₀ (by linarith)]
      linarith
    refine ⟨fun _ => h0, fun _ => ?_⟩
    have : (1 / 2 : ℝ) ≤ p := by
      have : logOddsToProbability (x : ℝ) / 2 ^ 21 ≤ 1 / 2 ^ 21 := by gcongr
      norm_num at *; linarith
    have : ((1 / 2 : ℚ) : ℝ) ≤ p := by push_cast; exact this
    exact_mod_cast this
  · rw [abs_of_neg h0] at ho
    have hx : (x : ℝ) ≤ -(1 / 1000) := by
      have : (x : ℝ) ≤ ((-(1 / 1000) : ℚ) : ℝ) := by exact_mod_cast (by linarith : x ≤ -(1 / 1000))
      push_cast at this; exact this
    have h1 : logOddsToProbability x ≤ logOddsToProbability (-(1 / 1000)) := (C82_order _ _).2 hx
    have h2 : logOddsToProbability (-(1 / 1000)) ≤ (1 / 2 - 1 / 10000 : ℝ) := by
      unfold logOddsToProbability
      have := Real.add_one_le_exp (1 / 1000 : ℝ)
      have he := Real.exp_pos (1 / 1000 : ℝ)
      simp only [Real.exp_neg]
      rw [div_le_iff₀ (by positivity)]
      have : (Real.exp (1 / 1000))⁻¹ ≤ 1000 / 1001 := by
        rw [inv_le_comm₀ he (by norm_num)]; norm_num at *; linarith
      linarith
    refine ⟨fun hh => ?_, fun hh => absurd hh (not_le.2 h0)⟩
    have hh' : ((1 / 2 : ℚ) : ℝ) ≤ p := by exact_mod_cast hh
    push_cast at hh'
    have : logOddsToProbability (x : ℝ) / 2 ^ 21 ≤ 1 / 2 ^ 21 := by gcongr
    norm_num at *; linarith

/-- In single precision the log odds of every probability strictly between 0 and 1 are correct up to `2^-21`, before the logarithm itself is rounded: the odds have a relative error of
at most two roundings. -/
theorem C82_single_log_odds (p : ℚ) (h0 : 0 < p) (h1 : p < 1) :
    ∃ o, probabilityToOddsSingle p = some o ∧ 0 < o ∧ |Real.log o - probabilityToLogOdds p| ≤ 1 / 2 ^ 21 := by
  obtain ⟨d1, hd1, e1⟩ := fl_factor (1 - p)
  obtain ⟨d2, hd2, e2⟩ := fl_factor (p / fl (1 - p))
  have hp1 : 0 < 1 - p := by linarith
  obtain ⟨a1, a2⟩ := abs_le.1 hd1
  obtain ⟨b1, b2⟩ := abs_le.1 hd2
  have hc1 : 0 < 1 + d1 := by norm_num at *; linarith
  have hc2 : 0 < 1 + d2 := by norm_num at *; linarith
  have hq : fl (1 - p) ≠ 0 := by rw [e1]; exact (mul_pos hp1 hc1).ne'
  have ho : fl (p / fl (1 - p)) = p / (1 - p) * ((1 + d2) / (1 + d1)) := by
    rw [e2, e1]; field_simp
  have hpos : 0 < p / (1 - p) := div_pos h0 hp1
  have hk : 0 < (1 + d2) / (1 + d1) := div_pos hc2 hc1
  refine ⟨_, by unfold probabilityToOddsSingle; rw [if_neg hq], by rw [ho]; exact mul_pos hpos hk, ?_⟩
  rw [ho]
  have hk1 : (1 + d2) / (1 + d1) - 1 ≤ 1 / 2 ^ 21 := by
    rw [sub_le_iff_le_add, div_le_iff₀ hc1]; norm_num at *; linarith
  have hk2 : ((1 + d2) / (1 + d1))⁻¹ - 1 ≤ 1 / 2 ^ 21 := by
    rw [inv_div, sub_le_iff_le_add, div_le_iff₀ hc2]; norm_num at *; linarith
  generalize (1 + d2) / (1 + d1) = k at hk hk1 hk2
  have hkR : (0 : ℝ) < (k : ℝ) := by exact_mod_cast hk
  have e : probabilityToLogOdds p = Real.log ((p / (1 - p) : ℚ) : ℝ) := by
    unfold probabilityToLogOdds; push_cast; rfl
  rw [e, Rat.cast_mul, Real.log_mul (by exact_mod_cast hpos.ne') hkR.ne', add_sub_cancel_left, abs_le]
  have l1 := Real.log_le_sub_one_of_pos hkR
  have l2 := Real.log_le_sub_one_of_pos (inv_pos.2 hkR)
  rw [Real.log_inv] at l2
  have c1 : ((k - 1 : ℚ) : ℝ) ≤ ((1 / 2 ^ 21 : ℚ) : ℝ) := by exact_mod_cast hk1
  have c2 : ((k⁻¹ - 1 : ℚ) : ℝ) ≤ ((1 / 2 ^ 21 : ℚ) : ℝ) := by exact_mod_cast hk2
  push_cast at c1 c2
  constructor <;> linarith

/-- A probability of three quarters has odds of exactly three. -/
example : probabilityToOddsSingle (3 / 4) = some 3 := by decide +kernel

/-- A single precision number at least `2^25` does not change if one is added. -/
theorem fl_one_add {y : ℚ} (hy : IsFloat y) (h : 2 ^ 25 ≤ y) : fl (1 + y) = y := by
  have hy0 : (0 : ℚ) < y := lt_of_lt_of_le (by norm_num) h
  have he := fl_of_isFloat hy
  rw [fl_of_ne hy0.ne'] at he
  obtain ⟨hb1, hb2⟩ := lastBit_bounds hy0.ne'
  set e := lastBit y
  set k := roundTiesToEven (y / 2 ^ e)
  have hpe := two_zpow_pos e
  have hk : y / 2 ^ e = k := by rw [← he]; field_simp
  rw [hk, abs_of_pos (by rw [← hk]; positivity)] at hb1 hb2
  have hk2 : (k : ℚ) ≤ 2 ^ 24 - 1 := by
    have : k < 2 ^ 24 := by exact_mod_cast hb2
    have : k ≤ 2 ^ 24 - 1 := by omega
    exact_mod_cast this
  have h4 : (4 : ℚ) ≤ 2 ^ e := by
    have h2 : (2 : ℚ) < 2 ^ e := by
      by_contra hn
      have hn := not_lt.1 hn
      have : y < 2 ^ 24 * 2 ^ e := by rw [← he]; exact mul_lt_mul_of_pos_right hb2 hpe
      nlinarith
    have : (1 : Int) < e := by
      have h3 : (2 : ℚ) ^ (1 : Int) < 2 ^ e := by simpa using h2
      exact (zpow_lt_zpow_iff_right₀ (by norm_num)).1 h3
    calc (4 : ℚ) = 2 ^ (2 : Int) := by norm_num
      _ ≤ 2 ^ e := zpow_le_zpow_right₀ (by norm_num) (by omega)
  have hq : (1 + y) / 2 ^ e = 1 / 2 ^ e + k := by rw [add_div, hk]
  have hq1 : (1 : ℚ) / 2 ^ e ≤ 1 / 4 := one_div_le_one_div_of_le (by norm_num) h4
  have hq0 : (0 : ℚ) < 1 / 2 ^ e := by positivity
  rw [← he]
  refine fl_eq ?_ ?_ ?_
  · rw [he, hq, abs_of_pos (by linarith)]; linarith
  · rw [he, hq, abs_of_pos (by linarith)]; linarith
  · rw [he, hq, add_sub_cancel_right, abs_of_pos hq0]; linarith

/-- Finding: from log odds of 18 on the probability is exactly one, and converting it back divides by zero. -/
theorem C82_single_round_trip_fails (expF : ℚ → ℚ) (h : IsExpSingle expF) (x : ℚ) (h18 : 18 ≤ x) (hx : x ≤ 88) :
    logOddsToProbabilitySingle expF x = some 1 ∧ probabilityToOddsSingle 1 = none := by
  obtain ⟨-, ho⟩ := single_close h x
  obtain ⟨p, hp, -⟩ := C82_single_partial expF h x hx
  have hacc := abs_le.1 (h.accurate x)
  have hbig : 2 ^ 25 ≤ expF x := by
    have h1 : (2 : ℝ) ^ 25 + 2 ^ 24 ≤ Real.exp x := by
      have h2 : Real.exp 1 ^ 18 ≤ Real.exp x := by
        rw [← Real.exp_nat_mul]
        refine Real.exp_le_exp.2 ?_
        have : ((18 : ℚ) : ℝ) ≤ x := by exact_mod_cast h18
        push_cast at *; linarith
      exact le_trans (le_trans (by norm_num) (pow_le_pow_left₀ (by norm_num) Real.exp_one_gt_d9.le 18)) h2
    have h2 : (2 : ℝ) ^ 25 ≤ expF x := by
      have : Real.exp (x : ℝ) / 2 ^ 23 ≤ Real.exp x * (1 / 1024) := by
        rw [div_eq_mul_inv]; exact mul_le_mul_of_nonneg_left (by norm_num) (Real.exp_pos _).le
      linarith [hacc.1]
    exact_mod_cast h2
  have hne : expF x ≠ 0 := ho.ne'
  unfold logOddsToProbabilitySingle at hp ⊢
  simp only at hp ⊢
  have h1 : fl 1 = 1 := by simpa using fl_of_isFloat (isFloat_int (k := 1) (by norm_num))
  split at hp
  · cases hp
  · rename_i hm
    rw [if_neg hm, fl_one_add (h.float x) hbig, div_self hne, h1]
    exact ⟨rfl, by simp [probabilityToOddsSingle, fl_zero]⟩

/-- Finding: above `kLogOddsNumericalMax`, here from 89 on, the result is not a number. -/
theorem C82_single_overflow_fails (expF : ℚ → ℚ) (h : IsExpSingle expF) (x : ℚ) (hx : 89 ≤ x) :
    logOddsToProbabilitySingle expF x = none := by
  have hacc := abs_le.1 (h.accurate x)
  have h1 : (2 : ℝ) ^ 128 * (5 / 4) ≤ Real.exp x := by
    have h2 : Real.exp 1 ^ 89 ≤ Real.exp x := by
      rw [← Real.exp_nat_mul]
      refine Real.exp_le_exp.2 ?_
      have : ((89 : ℚ) : ℝ) ≤ x := by exact_mod_cast hx
      push_cast at *; linarith
    exact le_trans (le_trans (by norm_num) (pow_le_pow_left₀ (by norm_num) Real.exp_one_gt_d9.le 89)) h2
  have h2 : ((2 ^ 24 - 1) * 2 ^ 104 : ℝ) < expF x := by
    have : Real.exp (x : ℝ) / 2 ^ 23 ≤ Real.exp x * (1 / 1024) := by
      rw [div_eq_mul_inv]; exact mul_le_mul_of_nonneg_left (by norm_num) (Real.exp_pos _).le
    norm_num at *
    linarith [hacc.1]
  have h3 : maxFloat < expF x := by unfold maxFloat; exact_mod_cast h2
  exact if_pos h3

/-- A single precision number this close to one is one. -/
theorem float_near_one {y : ℚ} (hy : IsFloat y) (h : |y - 1| < 1 / 2 ^ 25) : y = 1 := by
  have hb := abs_lt.1 h
  rw [← fl_of_isFloat hy]
  rcases le_or_gt 1 y with h1 | h1
  · have := fl_eq (x := y) (k := 2 ^ 23) (e := -23) ?_ ?_ ?_
    · rw [this]; norm_num
    · rw [abs_of_pos (by positivity)]; norm_num; linarith
    · rw [abs_of_pos (by positivity)]; norm_num at *; linarith
    · rw [abs_lt]; constructor <;> norm_num at * <;> linarith
  · have hy0 : 0 < y := by norm_num at *; linarith
    have hle : fl y ≤ 1 := by
      have := fl_mono h1.le
      rwa [show fl 1 = 1 from by simpa using fl_of_isFloat (isFloat_int (k := 1) (by norm_num))] at this
    have hlo : fl (1 - 1 / 2 ^ 25) = 1 := by decide +kernel
    have := fl_mono (show 1 - 1 / 2 ^ 25 ≤ y by linarith [hb.1])
    rw [hlo] at this
    linarith

/-- Finding: a cell that is slightly more likely free than occupied is free by its log odds and occupied by its probability, even with the best possible exponential
function. Such a cell counts as unobserved for the library's own classifier. -/
theorem C82_single_classify_fails (expF : ℚ → ℚ) (h : IsExpNearest expF) :
    IsFloat (-1 / 2 ^ 30) ∧ ¬(0 : ℚ) ≤ -1 / 2 ^ 30 ∧ logOddsToProbabilitySingle expF (-1 / 2 ^ 30) = some (1 / 2) := by
  have e : ((-1 / 2 ^ 30 : ℚ) : ℝ) = -1 / 2 ^ 30 := by push_cast; rfl
  have h1 := h.nearest (-1 / 2 ^ 30) 1 (by simpa using isFloat_int (k := 1) (by norm_num))
  rw [e] at h1
  have hup : Real.exp (-1 / 2 ^ 30) ≤ 1 := Real.exp_le_one_iff.2 (by norm_num)
  have hlo := Real.add_one_le_exp (-1 / 2 ^ 30 : ℝ)
  have h2 : |(expF (-1 / 2 ^ 30) : ℝ) - 1| < 1 / 2 ^ 25 := by
    push_cast at h1
    rw [abs_of_nonneg (by linarith : (0 : ℝ) ≤ 1 - Real.exp (-1 / 2 ^ 30))] at h1
    have h1 := abs_le.1 h1
    rw [abs_lt]
    constructor <;> norm_num at * <;> linarith [h1.1, h1.2]
  have h3 : expF (-1 / 2 ^ 30) = 1 := by
    apply float_near_one (h.float _)
    have : ((|expF (-1 / 2 ^ 30) - 1| : ℚ) : ℝ) < ((1 / 2 ^ 25 : ℚ) : ℝ) := by push_cast; push_cast at h2; exact h2
    exact_mod_cast this
  refine ⟨⟨-1, -30, by norm_num, by norm_num⟩, by norm_num, ?_⟩
  simp only [logOddsToProbabilitySingle, h3]
  decide +kernel

/-- There are such exponential functions (rounding the exact value), so the theorems above are about something. -/
example : ∃ expF, IsExpSingle expF := by
  have : ∀ x : ℚ, ∃ y : ℚ, IsFloat y ∧ |(y : ℝ) - Real.exp x| ≤ Real.exp x / 2 ^ 23 := by
    intro x
    have he := Real.exp_pos (x : ℝ)
    obtain ⟨q, h1, h2⟩ := exists_rat_btwn (show Real.exp x < Real.exp x * (1 + 1 / 2 ^ 30) by nlinarith [show (0:ℝ) < 1 / 2 ^ 30 by norm_num])
    refine ⟨fl q, isFloat_fl q, ?_⟩
    have hq0 : (0 : ℝ) < q := he.trans h1
    have hq0' : 0 < q := by exact_mod_cast hq0
    have := fl_err q
    rw [abs_of_pos hq0'] at this
    have h3 : |(fl q : ℝ) - q| ≤ q / 2 ^ 24 := by
      have h4 : ((|fl q - q| : ℚ) : ℝ) ≤ ((q / 2 ^ 24 : ℚ) : ℝ) := by exact_mod_cast this
      push_cast at h4; exact h4
    have h3 := abs_le.1 h3
    rw [abs_le]
    constructor <;> norm_num at * <;> linarith [h3.1, h3.2]
  choose f hf using this
  exact ⟨f, fun x => (hf x).1, fun x => (hf x).2⟩

end Wavemap
