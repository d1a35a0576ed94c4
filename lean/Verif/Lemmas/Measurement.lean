import Mathlib.Tactic.Linarith
import Mathlib.Tactic.NormNum
import Mathlib.Tactic.Ring
import Mathlib.Tactic.Positivity
import Mathlib.Tactic.FieldSimp
import Verif.Model.Measurement
/-! Helper lemmas about the approximate Gaussian and the log-odds map. -/
namespace Wavemap

theorem gauss_low {t : ℝ} (h : t ≤ -3) : gaussCumulative t = 0 := by
  unfold gaussCumulative
  split
  · rfl
  · have : t = -3 := by linarith
    subst this; norm_num

theorem gauss_a {t : ℝ} (h1 : -3 ≤ t) (h2 : t ≤ -1) : gaussCumulative t = 1 / 48 * (t + 3) ^ 3 := by
  unfold gaussCumulative
  rw [if_neg (by linarith), if_pos h2]; ring

theorem gauss_b {t : ℝ} (h1 : -1 ≤ t) (h2 : t ≤ 1) : gaussCumulative t = 1 / 2 + 1 / 24 * (t * (9 - t ^ 2)) := by
  unfold gaussCumulative
  rw [if_neg (by linarith)]
  split
  · have : t = -1 := by linarith
    subst this; norm_num
  · split
    · ring
    · have : t = 1 := by linarith
      subst this; norm_num

theorem gauss_c {t : ℝ} (h1 : 1 ≤ t) (h2 : t ≤ 3) : gaussCumulative t = 1 - 1 / 48 * (3 - t) ^ 3 := by
  unfold gaussCumulative
  rw [if_neg (by linarith), if_neg (by linarith), if_neg (by linarith), if_pos h2]; ring

theorem gauss_high {t : ℝ} (h : 3 ≤ t) : gaussCumulative t = 1 := by
  rcases eq_or_lt_of_le h with h | h
  · rw [← h, gauss_c (by norm_num) le_rfl]; norm_num
  · unfold gaussCumulative
    rw [if_neg (by linarith), if_neg (by linarith), if_neg (by linarith), if_neg (by linarith)]

/-- The slope is between 0 and 3/8 everywhere. -/
theorem gauss_slope {s t : ℝ} (h : s ≤ t) :
    gaussCumulative s ≤ gaussCumulative t ∧ gaussCumulative t - gaussCumulative s ≤ 3 / 8 * (t - s) := by
  have p1 : ∀ a b : ℝ, a ≤ b → b ≤ -3 →
      gaussCumulative a ≤ gaussCumulative b ∧ gaussCumulative b - gaussCumulative a ≤ 3 / 8 * (b - a) := by
    intro a b h1 h2
    rw [gauss_low h2, gauss_low (h1.trans h2)]; constructor <;> linarith
  have p5 : ∀ a b : ℝ, 3 ≤ a → a ≤ b →
      gaussCumulative a ≤ gaussCumulative b ∧ gaussCumulative b - gaussCumulative a ≤ 3 / 8 * (b - a) := by
    intro a b h1 h2
    rw [gauss_high h1, gauss_high (h1.trans h2)]; constructor <;> linarith
  have p2 : ∀ a b : ℝ, -3 ≤ a → a ≤ b → b ≤ -1 →
      gaussCumulative a ≤ gaussCumulative b ∧ gaussCumulative b - gaussCumulative a ≤ 3 / 8 * (b - a) := by
    intro a b h0 h1 h2
    rw [gauss_a h0 (h1.trans h2), gauss_a (h0.trans h1) h2]
    have e : 1 / 48 * (b + 3) ^ 3 - 1 / 48 * (a + 3) ^ 3
        = 1 / 48 * (b - a) * ((b + 3) ^ 2 + (b + 3) * (a + 3) + (a + 3) ^ 2) := by ring
    have hA : 0 ≤ (b + 3) ^ 2 + (b + 3) * (a + 3) + (a + 3) ^ 2 := by
      have := mul_nonneg (by linarith : (0:ℝ) ≤ b + 3) (by linarith : (0:ℝ) ≤ a + 3)
      positivity
    have hB : (b + 3) ^ 2 + (b + 3) * (a + 3) + (a + 3) ^ 2 ≤ 18 := by nlinarith
    have hd : 0 ≤ b - a := by linarith
    constructor
    · have := mul_nonneg (mul_nonneg (by norm_num : (0:ℝ) ≤ 1/48) hd) hA
      linarith
    · rw [e]; nlinarith
  have p4 : ∀ a b : ℝ, 1 ≤ a → a ≤ b → b ≤ 3 →
      gaussCumulative a ≤ gaussCumulative b ∧ gaussCumulative b - gaussCumulative a ≤ 3 / 8 * (b - a) := by
    intro a b h0 h1 h2
    rw [gauss_c h0 (h1.trans h2), gauss_c (h0.trans h1) h2]
    have e : (1 - 1 / 48 * (3 - b) ^ 3) - (1 - 1 / 48 * (3 - a) ^ 3)
        = 1 / 48 * (b - a) * ((3 - b) ^ 2 + (3 - b) * (3 - a) + (3 - a) ^ 2) := by ring
    have hA : 0 ≤ (3 - b) ^ 2 + (3 - b) * (3 - a) + (3 - a) ^ 2 := by
      have := mul_nonneg (by linarith : (0:ℝ) ≤ 3 - b) (by linarith : (0:ℝ) ≤ 3 - a)
      positivity
    have hB : (3 - b) ^ 2 + (3 - b) * (3 - a) + (3 - a) ^ 2 ≤ 18 := by nlinarith
    have hd : 0 ≤ b - a := by linarith
    constructor
    · have := mul_nonneg (mul_nonneg (by norm_num : (0:ℝ) ≤ 1/48) hd) hA
      linarith
    · rw [e]; nlinarith
  have p3 : ∀ a b : ℝ, -1 ≤ a → a ≤ b → b ≤ 1 →
      gaussCumulative a ≤ gaussCumulative b ∧ gaussCumulative b - gaussCumulative a ≤ 3 / 8 * (b - a) := by
    intro a b h0 h1 h2
    rw [gauss_b h0 (h1.trans h2), gauss_b (h0.trans h1) h2]
    have e : (1 / 2 + 1 / 24 * (b * (9 - b ^ 2))) - (1 / 2 + 1 / 24 * (a * (9 - a ^ 2)))
        = 1 / 24 * (b - a) * (9 - (b ^ 2 + a * b + a ^ 2)) := by ring
    have hA : b ^ 2 + a * b + a ^ 2 ≤ 3 := by nlinarith
    have hB : 0 ≤ b ^ 2 + a * b + a ^ 2 := by nlinarith [sq_nonneg (a + b)]
    have hd : 0 ≤ b - a := by linarith
    constructor
    · have := mul_nonneg (mul_nonneg (by norm_num : (0:ℝ) ≤ 1/24) hd) (by linarith : (0:ℝ) ≤ 9 - (b ^ 2 + a * b + a ^ 2))
      linarith
    · rw [e]; nlinarith
  -- glue
  have q4 : ∀ a b : ℝ, 1 ≤ a → a ≤ b →
      gaussCumulative a ≤ gaussCumulative b ∧ gaussCumulative b - gaussCumulative a ≤ 3 / 8 * (b - a) := by
    intro a b h0 h1
    rcases le_total b 3 with hb | hb
    · exact p4 a b h0 h1 hb
    rcases le_total 3 a with ha | ha
    · exact p5 a b ha h1
    have x := p4 a 3 h0 ha le_rfl
    have y := p5 3 b le_rfl hb
    exact ⟨x.1.trans y.1, by linarith [x.2, y.2]⟩
  have q3 : ∀ a b : ℝ, -1 ≤ a → a ≤ b →
      gaussCumulative a ≤ gaussCumulative b ∧ gaussCumulative b - gaussCumulative a ≤ 3 / 8 * (b - a) := by
    intro a b h0 h1
    rcases le_total b 1 with hb | hb
    · exact p3 a b h0 h1 hb
    rcases le_total 1 a with ha | ha
    · exact q4 a b ha h1
    have x := p3 a 1 h0 ha le_rfl
    have y := q4 1 b le_rfl hb
    exact ⟨x.1.trans y.1, by linarith [x.2, y.2]⟩
  have q2 : ∀ a b : ℝ, -3 ≤ a → a ≤ b →
      gaussCumulative a ≤ gaussCumulative b ∧ gaussCumulative b - gaussCumulative a ≤ 3 / 8 * (b - a) := by
    intro a b h0 h1
    rcases le_total b (-1) with hb | hb
    · exact p2 a b h0 h1 hb
    rcases le_total (-1) a with ha | ha
    · exact q3 a b ha h1
    have x := p2 a (-1) h0 ha le_rfl
    have y := q3 (-1) b le_rfl hb
    exact ⟨x.1.trans y.1, by linarith [x.2, y.2]⟩
  rcases le_total t (-3) with hb | hb
  · exact p1 s t h hb
  rcases le_total (-3) s with ha | ha
  · exact q2 s t ha h
  have x := p1 s (-3) ha le_rfl
  have y := q2 (-3) t le_rfl hb
  exact ⟨x.1.trans y.1, by linarith [x.2, y.2]⟩

theorem gauss_nonneg (t : ℝ) : 0 ≤ gaussCumulative t := by
  have := (gauss_slope (min_le_left t (-3))).1
  rwa [gauss_low (min_le_right t (-3))] at this

theorem gauss_le_one (t : ℝ) : gaussCumulative t ≤ 1 := by
  have := (gauss_slope (le_max_left t 3)).1
  rwa [gauss_high (le_max_right t 3)] at this

theorem contrib_low {f : ℝ} (h : f ≤ -3) : rangeContrib f = -1 / 2 := by
  unfold rangeContrib
  rw [gauss_low h, gauss_low (by linarith)]; norm_num

theorem contrib_neg {f : ℝ} (h : f < 0) : -1 / 2 ≤ rangeContrib f ∧ rangeContrib f < 0 := by
  unfold rangeContrib
  rw [gauss_low (by linarith : f - 3 ≤ -3)]
  refine ⟨by linarith [gauss_nonneg f], ?_⟩
  rcases le_total f (-1) with h1 | h1
  · have := (gauss_slope h1).1
    rw [gauss_b le_rfl (by norm_num)] at this
    norm_num at this ⊢; linarith
  · rw [gauss_b h1 (by linarith)]
    have : f * (9 - f ^ 2) < 0 := mul_neg_of_neg_of_pos h (by nlinarith)
    linarith

theorem contrib_zero : rangeContrib 0 = 0 := by
  unfold rangeContrib
  rw [gauss_b (by norm_num) (by norm_num), gauss_low (by norm_num)]; norm_num

theorem contrib_high {f : ℝ} (h : 6 ≤ f) : rangeContrib f = 0 := by
  unfold rangeContrib
  rw [gauss_high (by linarith), gauss_high (by linarith)]; norm_num

theorem contrib_pos {f : ℝ} (h : 0 < f) (h6 : f < 6) : 0 < rangeContrib f ∧ rangeContrib f < 1 / 2 := by
  unfold rangeContrib
  constructor
  · rcases le_total f 3 with h3 | h3
    · -- the second term is at most C(f-3) ≤ C(-f)... bounded piecewise
      rcases le_total f 1 with h1 | h1
      · rw [gauss_b (by linarith) h1, gauss_a (by linarith) (by linarith)]
        have : f ^ 3 ≤ f := by nlinarith [mul_nonneg h.le (by linarith : (0:ℝ) ≤ 1 - f), mul_nonneg (mul_nonneg h.le h.le) (by linarith : (0:ℝ) ≤ 1 - f)]
        nlinarith
      · rcases le_total f 2 with h2 | h2
        · have a := (gauss_slope h1).1
          have b := (gauss_slope (by linarith : f - 3 ≤ -1)).1
          rw [gauss_b (by norm_num) le_rfl] at a
          rw [gauss_b le_rfl (by norm_num)] at b
          norm_num at a b; linarith
        · have a := (gauss_slope h1).1
          have b := (gauss_slope (by linarith : f - 3 ≤ 0)).1
          rw [gauss_b (by norm_num) le_rfl] at a
          rw [gauss_b (t := 0) (by norm_num) (by norm_num)] at b
          norm_num at a b; linarith
    · rw [gauss_high h3]
      rcases le_total f 4 with h4 | h4
      · have b := (gauss_slope (by linarith : f - 3 ≤ 1)).1
        rw [gauss_b (by norm_num) le_rfl] at b
        norm_num at b; linarith
      · rw [gauss_c (by linarith) (by linarith)]
        have : 0 < (3 - (f - 3)) ^ 3 := by have : 0 < 3 - (f - 3) := by linarith
                                           positivity
        linarith
  · rcases le_total f 2 with h2 | h2
    · have a := (gauss_slope h2).1
      rw [gauss_c (t := 2) (by norm_num) (by norm_num)] at a
      have := gauss_nonneg (f - 3)
      norm_num at a; linarith
    · have b := (gauss_slope (by linarith : (-1:ℝ) ≤ f - 3)).1
      rw [gauss_b le_rfl (by norm_num)] at b
      have := gauss_le_one f
      norm_num at b; linarith

theorem logOdds_some {p : ℝ} (h0 : 0 < p) (h1 : p < 1) : logOddsUpdate p = some (Real.log (p / (1 - p))) := by
  unfold logOddsUpdate; rw [if_pos ⟨h0, h1⟩]

theorem logOdds_sign {p : ℝ} (h0 : 0 < p) (h1 : p < 1) :
    (Real.log (p / (1 - p)) < 0 ↔ p < 1 / 2) ∧ (0 < Real.log (p / (1 - p)) ↔ 1 / 2 < p)
      ∧ (Real.log (p / (1 - p)) = 0 ↔ p = 1 / 2) := by
  have hq : 0 < 1 - p := by linarith
  have hr : 0 < p / (1 - p) := div_pos h0 hq
  have a : Real.log (p / (1 - p)) < 0 ↔ p < 1 / 2 := by
    rw [Real.log_neg_iff hr, div_lt_one hq]; constructor <;> intro <;> linarith
  have b : 0 < Real.log (p / (1 - p)) ↔ 1 / 2 < p := by
    rw [Real.log_pos_iff hr.le, one_lt_div hq]; constructor <;> intro <;> linarith
  refine ⟨a, b, ?_⟩
  constructor
  · intro h
    rcases lt_trichotomy p (1 / 2) with x | x | x
    · have := a.2 x; linarith
    · exact x
    · have := b.2 x; linarith
  · rintro rfl; norm_num

theorem logOdds_mono {p q : ℝ} (h0 : 0 < p) (h : p ≤ q) (h1 : q < 1) :
    Real.log (p / (1 - p)) ≤ Real.log (q / (1 - q)) := by
  apply Real.log_le_log (div_pos h0 (by linarith))
  rw [div_le_div_iff₀ (by linarith) (by linarith)]
  nlinarith

end Wavemap
