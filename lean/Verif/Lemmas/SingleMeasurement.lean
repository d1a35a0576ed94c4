import Verif.Model.SingleMeasurement
import Verif.Lemmas.Measurement
import Verif.Props.SingleCamera
import Verif.Props.Probability
/-! Helper lemmas about the measurement models in single precision. -/
namespace Wavemap
namespace SingleMeasurement
open Single SingleCamera

/-! ## The cumulative distribution -/

/-- `gaussCumulative` for rational numbers. -/
def gaussQ (t : ℚ) : ℚ :=
  if t < -3 then 0
  else if t ≤ -1 then 1 / 48 * (t + 3) * (t + 3) * (t + 3)
  else if t < 1 then 1 / 2 + 1 / 24 * t * (t + 3) * (3 - t)
  else if t ≤ 3 then 1 - 1 / 48 * (3 - t) * (3 - t) * (3 - t)
  else 1

theorem gaussQ_cast (t : ℚ) : ((gaussQ t : ℚ) : ℝ) = gaussCumulative (t : ℝ) := by
  unfold gaussQ gaussCumulative
  have e1 : ((t : ℝ) < -3) ↔ t < -3 := by exact_mod_cast Iff.rfl
  have e2 : ((t : ℝ) ≤ -1) ↔ t ≤ -1 := by exact_mod_cast Iff.rfl
  have e3 : ((t : ℝ) < 1) ↔ t < 1 := by exact_mod_cast Iff.rfl
  have e4 : ((t : ℝ) ≤ 3) ↔ t ≤ 3 := by exact_mod_cast Iff.rfl
  simp only [e1, e2, e3, e4]
  split_ifs <;> push_cast <;> rfl

theorem gaussQ_slope {s t : ℚ} (h : s ≤ t) : gaussQ s ≤ gaussQ t ∧ gaussQ t - gaussQ s ≤ 3 / 8 * (t - s) := by
  have := gauss_slope (s := (s : ℝ)) (t := (t : ℝ)) (by exact_mod_cast h)
  rw [← gaussQ_cast, ← gaussQ_cast] at this
  constructor
  · exact_mod_cast this.1
  · have h2 := this.2
    have h3 : (((gaussQ t - gaussQ s : ℚ)) : ℝ) ≤ ((3 / 8 * (t - s) : ℚ) : ℝ) := by push_cast; linarith
    exact_mod_cast h3

theorem gaussQ_lip (s t : ℚ) : |gaussQ s - gaussQ t| ≤ 3 / 8 * |s - t| := by
  rcases le_total s t with h | h
  · obtain ⟨h1, h2⟩ := gaussQ_slope h
    rw [abs_of_nonpos (by linarith), abs_of_nonpos (by linarith : s - t ≤ 0)]; linarith
  · obtain ⟨h1, h2⟩ := gaussQ_slope h
    rw [abs_of_nonneg (by linarith), abs_of_nonneg (by linarith : 0 ≤ s - t)]; linarith

theorem gaussQ_nonneg (t : ℚ) : 0 ≤ gaussQ t := by
  have := gauss_nonneg (t : ℝ); rw [← gaussQ_cast] at this; exact_mod_cast this
theorem gaussQ_le_one (t : ℚ) : gaussQ t ≤ 1 := by
  have := gauss_le_one (t : ℝ); rw [← gaussQ_cast] at this; exact_mod_cast this
theorem gaussQ_low {t : ℚ} (h : t ≤ -3) : gaussQ t = 0 := by
  have := gauss_low (t := (t : ℝ)) (by exact_mod_cast h); rw [← gaussQ_cast] at this; exact_mod_cast this
theorem gaussQ_high {t : ℚ} (h : 3 ≤ t) : gaussQ t = 1 := by
  have := gauss_high (t := (t : ℝ)) (by exact_mod_cast h); rw [← gaussQ_cast] at this; exact_mod_cast this

/-- Three factors, each rounded, and the products rounded. -/
theorem prod3 (c a b d a' b' d' : ℚ) {i j k : Nat} {x y z : ℚ} (hx : Sc i x) (hy : Sc j y) (hz : Sc k z) (ha : a' = a * x) (hb : b' = b * y) (hd : d' = d * z) :
    ∃ T, Sc (4 + i + j + k) T ∧ fl (fl (fl (fl c * a') * b') * d') = c * a * b * d * T := by
  obtain ⟨t1, h1, e1⟩ := fl_sc c
  obtain ⟨t2, h2, e2⟩ := fl_sc (fl c * a')
  obtain ⟨t3, h3, e3⟩ := fl_sc (fl (fl c * a') * b')
  obtain ⟨t4, h4, e4⟩ := fl_sc (fl (fl (fl c * a') * b') * d')
  refine ⟨t1 * t2 * t3 * t4 * x * y * z, ?_, ?_⟩
  · exact (((((h1.mul h2).mul h3).mul h4).mul hx).mul hy).mul hz
  · rw [e4, e3, e2, e1, ha, hb, hd]; ring

theorem fl_half : fl (1 / 2) = 1 / 2 := fl_of_isFloat ⟨1, -1, by norm_num, by norm_num⟩
theorem fl_one : fl 1 = 1 := fl_of_isFloat ⟨1, 0, by norm_num, by norm_num⟩
theorem fl_negHalf : fl (-1 / 2) = -1 / 2 := fl_of_isFloat ⟨-1, -1, by norm_num, by norm_num⟩

theorem cube_le {x : ℚ} (h0 : 0 ≤ x) (h : x ≤ 2) : 0 ≤ 1 / 48 * x * x * x ∧ 1 / 48 * x * x * x ≤ 1 / 6 := by
  have h1 : 0 ≤ x * x := mul_nonneg h0 h0
  have h2 : x * x ≤ 4 := by nlinarith
  constructor
  · have := mul_nonneg h1 h0; linarith
  · nlinarith

/-- The outer pieces: the rounded cube. -/
theorem piece {x y : ℚ} (h0 : 0 ≤ x) (h : x ≤ 2) (hy : y = fl x) :
    0 ≤ fl (fl (fl (fl (1 / 48) * y) * y) * y) ∧ |fl (fl (fl (fl (1 / 48) * y) * y) * y) - 1 / 48 * x * x * x| ≤ 7 / 6 / 2 ^ 23 := by
  obtain ⟨t, ht, e⟩ := fl_sc x
  have e := hy.trans e
  obtain ⟨T, hT, e2⟩ := prod3 (1 / 48) x x x y y y ht ht ht e e e
  obtain ⟨p1, p2⟩ := cube_le h0 h
  rw [e2]
  refine ⟨mul_nonneg p1 hT.pos.le, (hT.apply (by norm_num) _).trans ?_⟩
  rw [abs_of_nonneg p1]
  push_cast
  linarith

theorem mid_le {t : ℚ} (h0 : -1 ≤ t) (h : t ≤ 1) : |1 / 24 * t * (t + 3) * (3 - t)| ≤ 1 / 3 ∧ (0 ≤ t → 0 ≤ 1 / 24 * t * (t + 3) * (3 - t)) ∧ (t ≤ 0 → 1 / 24 * t * (t + 3) * (3 - t) ≤ 0) := by
  have e : 1 / 24 * t * (t + 3) * (3 - t) = t * ((9 - t ^ 2) / 24) := by ring
  have ht : t ^ 2 ≤ 1 := by nlinarith
  have ht0 := sq_nonneg t
  rw [e]
  have hq : 0 ≤ (9 - t ^ 2) / 24 := by linarith
  refine ⟨?_, fun h => mul_nonneg h hq, fun h => mul_nonpos_of_nonpos_of_nonneg h hq⟩
  rw [abs_le]
  constructor
  · nlinarith [mul_nonneg (by linarith : 0 ≤ 1 + t) (by nlinarith : 0 ≤ 8 + t - t ^ 2)]
  · nlinarith [mul_nonneg (by linarith : 0 ≤ 1 - t) (by nlinarith : 0 ≤ 8 - t - t ^ 2)]

theorem cumulative_spec (t : ℚ) : 0 ≤ cumulative t ∧ cumulative t ≤ 1 ∧ |cumulative t - gaussQ t| ≤ 1 / 2 ^ 21 ∧ (t ≤ 0 → cumulative t ≤ 1 / 2) ∧ (0 ≤ t → 1 / 2 ≤ cumulative t) := by
  unfold cumulative gaussQ
  dsimp only
  split
  · refine ⟨le_rfl, by norm_num, by norm_num, fun _ => by norm_num, fun h => by linarith⟩
  split
  · rename_i h1 h2
    obtain ⟨p1, p2⟩ := piece (x := t + 3) (by linarith) (by linarith) rfl
    obtain ⟨q1, q2⟩ := cube_le (x := t + 3) (by linarith) (by linarith)
    have := abs_le.1 p2
    refine ⟨p1, by linarith, p2.trans (by norm_num), fun _ => ?_, fun h => by linarith⟩
    have := this.2
    norm_num at this ⊢
    linarith
  split
  · rename_i h1 h2 h3
    obtain ⟨a, ha, ea⟩ := fl_sc (t + 3)
    obtain ⟨b, hb, eb⟩ := fl_sc (3 - t)
    have h0 : Sc 0 (1 : ℚ) := ⟨by norm_num, by norm_num⟩
    obtain ⟨T, hT, e⟩ := prod3 (1 / 24) t (t + 3) (3 - t) t _ _ h0 ha hb (mul_one t).symm ea eb
    obtain ⟨m1, m2, m3⟩ := mid_le (t := t) (by linarith) h3.le
    rw [e]
    set m := 1 / 24 * t * (t + 3) * (3 - t) with hm
    have h4 := hT.apply (by norm_num) m
    have h5 : |m * T - m| ≤ 1 / 2 ^ 22 := by
      refine h4.trans ?_
      push_cast
      linarith
    have h6 := abs_le.1 h5
    have h7 := abs_le.1 m1
    have h8 := fl_err (1 / 2 + m * T)
    have h9 : |1 / 2 + m * T| ≤ 1 := by rw [abs_le]; constructor <;> [(norm_num at h6 ⊢; linarith [h6.1]); (norm_num at h6 ⊢; linarith [h6.2])]
    have h10 := abs_le.1 h9
    refine ⟨?_, ?_, ?_, fun h => ?_, fun h => ?_⟩
    · have := fl_mono (show (0 : ℚ) ≤ 1 / 2 + m * T by norm_num at h6; linarith [h6.1])
      rwa [fl_zero] at this
    · have := fl_mono h10.2
      rwa [fl_one] at this
    · have h11 := abs_le.1 h8
      rw [abs_le]
      constructor <;> (norm_num at h6 h11 h9 ⊢; linarith [h6.1, h6.2, h11.1, h11.2])
    · have := fl_mono (show 1 / 2 + m * T ≤ 1 / 2 by nlinarith [mul_nonneg (neg_nonneg.2 (m3 h)) hT.pos.le])
      rwa [fl_half] at this
    · have := fl_mono (show 1 / 2 ≤ 1 / 2 + m * T by nlinarith [mul_nonneg (m2 h) hT.pos.le])
      rwa [fl_half] at this
  split
  · rename_i h1 h2 h3 h4
    obtain ⟨p1, p2⟩ := piece (x := 3 - t) (by linarith) (by linarith) rfl
    obtain ⟨q1, q2⟩ := cube_le (x := 3 - t) (by linarith) (by linarith)
    set w := fl (fl (fl (fl (1 / 48) * fl (3 - t)) * fl (3 - t)) * fl (3 - t))
    set v := 1 / 48 * (3 - t) * (3 - t) * (3 - t)
    have h5 := abs_le.1 p2
    have h6 := fl_err (1 - w)
    have h7 : |1 - w| ≤ 1 := by rw [abs_le]; constructor <;> (norm_num at h5; linarith [h5.1, h5.2])
    have h8 := abs_le.1 h6
    have h9 := abs_le.1 h7
    have hhalf : 1 / 2 ≤ fl (1 - w) := by
      have := fl_mono (show (1 : ℚ) / 2 ≤ 1 - w by norm_num at h5; linarith [h5.2])
      rwa [fl_half] at this
    refine ⟨by linarith, ?_, ?_, fun h => by linarith, fun _ => hhalf⟩
    · have := fl_mono h9.2
      rwa [fl_one] at this
    · rw [abs_le]
      constructor <;> (norm_num at h5 h8 h7 ⊢; linarith [h5.1, h5.2, h8.1, h8.2])
  · refine ⟨by norm_num, le_rfl, by norm_num, fun h => by linarith, fun _ => by norm_num⟩

/-! ## The contribution of the range -/

/-- `rangeContrib` for rational numbers. -/
def rangeQ (f : ℚ) : ℚ := gaussQ f - 1 / 2 * gaussQ (f - 3) - 1 / 2

theorem rangeQ_cast (f : ℚ) : ((rangeQ f : ℚ) : ℝ) = Wavemap.rangeContrib (f : ℝ) := by
  unfold rangeQ Wavemap.rangeContrib
  push_cast
  rw [gaussQ_cast, gaussQ_cast]
  push_cast
  rfl

theorem rangeQ_low {f : ℚ} (h : f ≤ -3) : rangeQ f = -1 / 2 := by
  unfold rangeQ; rw [gaussQ_low h, gaussQ_low (by linarith)]; norm_num
theorem rangeQ_high {f : ℚ} (h : 6 ≤ f) : rangeQ f = 0 := by
  unfold rangeQ; rw [gaussQ_high (by linarith), gaussQ_high (by linarith)]; norm_num
theorem rangeQ_lip (s t : ℚ) : |rangeQ s - rangeQ t| ≤ 9 / 16 * |s - t| := by
  have h1 := abs_le.1 (gaussQ_lip s t)
  have h2 := abs_le.1 (gaussQ_lip (s - 3) (t - 3))
  rw [sub_sub_sub_cancel_right] at h2
  unfold rangeQ
  rw [abs_le]
  constructor <;> linarith [h1.1, h1.2, h2.1, h2.2]
theorem rangeQ_ge (f : ℚ) : -1 / 2 ≤ rangeQ f := by
  have h1 := (gaussQ_slope (show f - 3 ≤ f by linarith)).1
  have h2 := gaussQ_nonneg (f - 3)
  unfold rangeQ
  linarith
theorem rangeQ_le (f : ℚ) : rangeQ f ≤ 93 / 200 := by
  have e1 : gaussQ (3 / 2) = 1 - 27 / 384 := by norm_num [gaussQ]
  have e2 : gaussQ (-3 / 2) = 27 / 384 := by norm_num [gaussQ]
  unfold rangeQ
  rcases le_total f (3 / 2) with h | h
  · have h1 := (gaussQ_slope h).1
    have h2 := gaussQ_nonneg (f - 3)
    linarith
  · have h1 := (gaussQ_slope (show -3 / 2 ≤ f - 3 by linarith)).1
    have h2 := gaussQ_le_one f
    linarith

theorem cumulative_low {t : ℚ} (h : t ≤ -3) : cumulative t = 0 := by
  rcases lt_or_eq_of_le h with h | h
  · unfold cumulative; dsimp only; rw [if_pos h]
  · subst h
    unfold cumulative; dsimp only
    norm_num [fl_zero]

theorem cumulative_high {t : ℚ} (h : 3 ≤ t) : cumulative t = 1 := by
  rcases lt_or_eq_of_le h with h | h
  · unfold cumulative; dsimp only
    rw [if_neg (by linarith), if_neg (by linarith), if_neg (by linarith), if_neg (by linarith)]
  · subst h
    unfold cumulative; dsimp only
    norm_num [fl_zero, fl_one]

theorem fl_three : fl 3 = 3 := fl_of_isFloat ⟨3, 0, by norm_num, by norm_num⟩
theorem fl_negThree : fl (-3) = -3 := fl_of_isFloat ⟨-3, 0, by norm_num, by norm_num⟩

/-- Just above zero the second term is too small to matter. -/
theorem cumulative_tiny {t : ℚ} (h0 : -3 ≤ t) (h : t ≤ -3 + 1 / 400) : cumulative t ≤ 1 / 2 ^ 29 := by
  unfold cumulative
  dsimp only
  rw [if_neg (by linarith), if_pos (by linarith)]
  obtain ⟨a, ha, ea⟩ := fl_sc (t + 3)
  obtain ⟨T, hT, e⟩ := prod3 (1 / 48) (t + 3) (t + 3) (t + 3) _ _ _ ha ha ha ea ea ea
  rw [e]
  have h1 := (abs_le.1 (hT.err (by norm_num))).2
  have hx0 : 0 ≤ t + 3 := by linarith
  have hx : t + 3 ≤ 1 / 400 := by linarith
  generalize t + 3 = x at *
  have h2 : x * x ≤ 1 / 400 * (1 / 400) := mul_le_mul hx hx hx0 (by norm_num)
  have h3 : x * x * x ≤ 1 / 400 * (1 / 400) * (1 / 400) := mul_le_mul h2 hx hx0 (by norm_num)
  have h4 : T ≤ 2 := by push_cast at h1; norm_num at h1; linarith
  have h5 : x * x * x * T ≤ 1 / 400 * (1 / 400) * (1 / 400) * 2 := mul_le_mul h3 h4 hT.pos.le (by norm_num)
  have e2 : 1 / 48 * x * x * x * T = 1 / 48 * (x * x * x * T) := by ring
  rw [e2]
  norm_num at h5 ⊢
  linarith

theorem halfCumulative (t : ℚ) : 0 ≤ fl (1 / 2 * cumulative t) ∧ fl (1 / 2 * cumulative t) ≤ 1 / 2 := by
  obtain ⟨h0, h1, -⟩ := cumulative_spec t
  constructor
  · have := fl_mono (show (0 : ℚ) ≤ 1 / 2 * cumulative t by linarith)
    rwa [fl_zero] at this
  · have := fl_mono (show 1 / 2 * cumulative t ≤ 1 / 2 by linarith)
    rwa [fl_half] at this

theorem rangeContrib_ge (f : ℚ) : -1 / 2 ≤ Single.rangeContrib f := by
  have key : 0 ≤ cumulative f - fl (1 / 2 * cumulative (fl (f - 3))) := by
    rcases le_total 0 f with h | h
    · have h1 := (cumulative_spec f).2.2.2.2 h
      have h2 := (halfCumulative (fl (f - 3))).2
      linarith
    · have h1 := fl_mono (show f - 3 ≤ -3 by linarith)
      rw [fl_negThree] at h1
      rw [cumulative_low h1, mul_zero, fl_zero]
      linarith [(cumulative_spec f).1]
  have h1 := fl_mono key
  rw [fl_zero] at h1
  have h2 := fl_mono (show -1 / 2 ≤ fl (cumulative f - fl (1 / 2 * cumulative (fl (f - 3)))) - 1 / 2 by linarith)
  rw [fl_negHalf] at h2
  exact h2

theorem rangeContrib_nonpos {f : ℚ} (h : f ≤ 0) : Single.rangeContrib f ≤ 0 := by
  have h1 := (cumulative_spec f).2.2.2.1 h
  have h2 := (halfCumulative (fl (f - 3))).1
  have h3 := fl_mono (show cumulative f - fl (1 / 2 * cumulative (fl (f - 3))) ≤ 1 / 2 by linarith)
  rw [fl_half] at h3
  have h4 := fl_mono (show fl (cumulative f - fl (1 / 2 * cumulative (fl (f - 3)))) - 1 / 2 ≤ 0 by linarith)
  rw [fl_zero] at h4
  exact h4

/-- Behind the surface the exact contribution is positive, with some margin. -/
theorem rangeQ_margin {f : ℚ} (h0 : 1 / 1000 ≤ f) (h1 : f ≤ 3) : 1 / 4000 ≤ rangeQ f := by
  unfold rangeQ
  rcases le_total f 1 with h | h
  · have e1 : gaussQ f = 1 / 2 + f * ((9 - f ^ 2) / 24) := by
      rcases lt_or_eq_of_le h with h | h
      · unfold gaussQ
        rw [if_neg (by linarith), if_neg (by linarith), if_pos h]; ring
      · subst h; norm_num [gaussQ]
    have e2 : gaussQ (f - 3) = 1 / 48 * f ^ 3 := by
      unfold gaussQ
      rw [if_neg (by linarith), if_pos (by linarith)]; ring
    have hf2 : f ^ 2 ≤ 1 := by nlinarith
    rw [e1, e2]
    nlinarith [mul_nonneg (by linarith : 0 ≤ f) (by linarith : 0 ≤ 1 - f ^ 2)]
  · rcases le_total f 2 with h2 | h2
    · have e1 : gaussQ 1 = 5 / 6 := by norm_num [gaussQ]
      have e2 : gaussQ (-1) = 1 / 6 := by norm_num [gaussQ]
      have h3 := (gaussQ_slope h).1
      have h4 := (gaussQ_slope (show f - 3 ≤ -1 by linarith)).1
      linarith
    · have e1 : gaussQ 2 = 47 / 48 := by norm_num [gaussQ]
      have e2 : gaussQ 0 = 1 / 2 := by norm_num [gaussQ]
      have h3 := (gaussQ_slope h2).1
      have h4 := (gaussQ_slope (show f - 3 ≤ 0 by linarith)).1
      linarith

theorem inner_err (f : ℚ) (hf : |f - 3| ≤ 11) :
    |cumulative f - fl (1 / 2 * cumulative (fl (f - 3))) - (gaussQ f - 1 / 2 * gaussQ (f - 3))| ≤ 15 / 2 ^ 24 := by
  have h1 := abs_le.1 (cumulative_spec f).2.2.1
  have h2 := abs_le.1 (cumulative_spec (fl (f - 3))).2.2.1
  have h3 := abs_le.1 ((gaussQ_lip (fl (f - 3)) (f - 3)).trans (mul_le_mul_of_nonneg_left ((fl_err (f - 3)).trans (div_le_div_of_nonneg_right hf (by norm_num))) (by norm_num)))
  have h4 := fl_err (1 / 2 * cumulative (fl (f - 3)))
  obtain ⟨c0, c1, -⟩ := cumulative_spec (fl (f - 3))
  rw [abs_of_nonneg (by linarith : 0 ≤ 1 / 2 * cumulative (fl (f - 3)))] at h4
  have h5 := abs_le.1 h4
  rw [abs_le]
  norm_num at h1 h2 h3 h5 ⊢
  constructor <;> linarith [h1.1, h1.2, h2.1, h2.2, h3.1, h3.2, h5.1, h5.2]

theorem rangeContrib_nonneg {f : ℚ} (h : 0 ≤ f) : 0 ≤ Single.rangeContrib f := by
  have key : 1 / 2 ≤ fl (cumulative f - fl (1 / 2 * cumulative (fl (f - 3)))) := by
    rcases le_or_gt 3 f with h3 | h3
    · have h1 := (halfCumulative (fl (f - 3))).2
      have := fl_mono (show (1 : ℚ) / 2 ≤ cumulative f - fl (1 / 2 * cumulative (fl (f - 3))) by rw [cumulative_high h3]; linarith)
      rwa [fl_half] at this
    rcases le_or_gt (1 / 1000) f with h2 | h2
    · have h4 := abs_le.1 (inner_err f (by rw [abs_le]; constructor <;> linarith))
      have h5 := rangeQ_margin h2 h3.le
      unfold rangeQ at h5
      have := fl_mono (show (1 : ℚ) / 2 ≤ cumulative f - fl (1 / 2 * cumulative (fl (f - 3))) by norm_num at h4; linarith [h4.1])
      rwa [fl_half] at this
    · have h4 := fl_mono (show -3 ≤ f - 3 by linarith)
      rw [fl_negThree] at h4
      have h5 := abs_le.1 (fl_err (f - 3))
      have h6 : |f - 3| ≤ 3 := by rw [abs_le]; constructor <;> linarith
      have h7 := cumulative_tiny h4 (by norm_num at h5 ⊢; linarith [h5.2])
      have h8 := fl_mono (show 1 / 2 * cumulative (fl (f - 3)) ≤ 1 / 2 ^ 30 by norm_num at h7 ⊢; linarith)
      rw [fl_of_isFloat (x := 1 / 2 ^ 30) ⟨1, -30, by norm_num, by norm_num⟩] at h8
      have h9 := (cumulative_spec f).2.2.2.2 h
      have h10 := fl_mono (show 1 / 2 - 1 / 2 ^ 30 ≤ cumulative f - fl (1 / 2 * cumulative (fl (f - 3))) by linarith)
      have e : fl (1 / 2 - 1 / 2 ^ 30) = 1 / 2 := by decide +kernel
      rwa [e] at h10
  have h1 := fl_mono (show 0 ≤ fl (cumulative f - fl (1 / 2 * cumulative (fl (f - 3)))) - 1 / 2 by linarith)
  rw [fl_zero] at h1
  exact h1

/-- The rounded contribution at a slightly wrong place. -/
theorem rangeContrib_err (f : ℚ) {T : ℚ} (hT : Sc 2 T) : |Single.rangeContrib (f * T) - rangeQ f| ≤ 40 / 2 ^ 24 := by
  have hTe := abs_le.1 (hT.err (by norm_num))
  have t1 : 99 / 100 ≤ T := by have := hTe.1; norm_num at this; linarith
  have t2 : T ≤ 101 / 100 := by have := hTe.2; norm_num at this; linarith
  rcases le_or_gt f (-4) with h | h
  · have h1 : f * T ≤ -3 := by nlinarith
    have h2 := fl_mono (show f * T - 3 ≤ -3 by linarith)
    rw [fl_negThree] at h2
    rw [rangeQ_low (by linarith)]
    unfold Single.rangeContrib
    rw [cumulative_low h1, cumulative_low h2, mul_zero, fl_zero, sub_zero, fl_zero, zero_sub]
    have e : fl (-(1 / 2)) = -1 / 2 := by rw [fl_neg, fl_half]; norm_num
    rw [e, sub_self, abs_zero]; norm_num
  rcases le_or_gt (13 / 2) f with h2 | h2
  · have h1 : 6 ≤ f * T := by nlinarith
    have h3 := fl_mono (show 3 ≤ f * T - 3 by linarith)
    rw [fl_three] at h3
    rw [rangeQ_high (by linarith)]
    unfold Single.rangeContrib
    rw [cumulative_high (by linarith), cumulative_high h3, mul_one, fl_half]
    have e : (1 : ℚ) - 1 / 2 = 1 / 2 := by norm_num
    rw [e, fl_half, sub_self, fl_zero, sub_self, abs_zero]; norm_num
  · have hf : |f| ≤ 13 / 2 := by rw [abs_le]; constructor <;> linarith
    have h1 := hT.apply (by norm_num) f
    have h3 : |f * T - f| ≤ 2 / 2 ^ 23 * (13 / 2) := by
      refine h1.trans ?_
      push_cast
      exact mul_le_mul_of_nonneg_left hf (by norm_num)
    have h4 := abs_le.1 ((rangeQ_lip (f * T) f).trans (mul_le_mul_of_nonneg_left h3 (by norm_num)))
    have h5 := abs_le.1 h3
    norm_num at h5
    have h6 := inner_err (f * T) (by rw [abs_le]; constructor <;> linarith [h5.1, h5.2])
    have h7 := abs_le.1 h6
    have r1 := rangeQ_ge (f * T)
    have r2 := rangeQ_le (f * T)
    unfold Single.rangeContrib
    set A := cumulative (f * T) - fl (1 / 2 * cumulative (fl (f * T - 3))) with hA
    unfold rangeQ at r1 r2 h4 ⊢
    set X := gaussQ (f * T) - 1 / 2 * gaussQ (f * T - 3) with hX
    set Y := gaussQ f - 1 / 2 * gaussQ (f - 3) with hY
    norm_num at h7 h4
    have hA1 : |A| ≤ 1 := by rw [abs_le]; constructor <;> linarith [h7.1, h7.2]
    have h8 := abs_le.1 ((fl_err A).trans (div_le_div_of_nonneg_right hA1 (by norm_num)))
    have h9 := fl_err (fl A - 1 / 2)
    norm_num at h8
    have h10 : |fl A - 1 / 2| ≤ 6 / 10 := by rw [abs_le]; constructor <;> linarith [h7.1, h7.2, h8.1, h8.2]
    have h11 := abs_le.1 (h9.trans (div_le_div_of_nonneg_right h10 (by norm_num)))
    norm_num at h11
    rw [abs_le]
    norm_num
    constructor <;> linarith [h7.1, h7.2, h8.1, h8.2, h11.1, h11.2, h4.1, h4.2]

/-! ## The probability -/

/-- The scaled contribution, without rounding. -/
def scaleQ (free occ r : ℚ) : ℚ := if r < 0 then free * r else occ * r

/-- The rounded probability of a contribution. -/
def probOf (free occ r : ℚ) : ℚ := fl ((if r < 0 then fl (free * r) else fl (occ * r)) + 1 / 2)

theorem probOf_spec {free occ r : ℚ} (f0 : 0 ≤ free) (f1 : free ≤ 1) (o0 : 0 ≤ occ) (o1 : occ ≤ 1) (r0 : -1 / 2 ≤ r) (r1 : r ≤ 94 / 200) :
    |probOf free occ r - (scaleQ free occ r + 1 / 2)| ≤ 2 / 2 ^ 24 ∧ fl (fl (-1 / 2 * free) + 1 / 2) ≤ probOf free occ r ∧ probOf free occ r ≤ 971 / 1000 ∧
      (r ≤ 0 → probOf free occ r ≤ 1 / 2) ∧ (0 ≤ r → 1 / 2 ≤ probOf free occ r) := by
  set x := if r < 0 then fl (free * r) else fl (occ * r) with hx
  have e : probOf free occ r = fl (x + 1 / 2) := rfl
  have hxs : x = fl (scaleQ free occ r) := by rw [hx]; unfold scaleQ; split <;> rfl
  have s0 : -1 / 2 * free ≤ scaleQ free occ r := by
    unfold scaleQ; split
    · nlinarith
    · rename_i h; push Not at h; nlinarith [mul_nonneg o0 h]
  have s1 : scaleQ free occ r ≤ 94 / 200 := by
    unfold scaleQ; split
    · nlinarith
    · rename_i h; push Not at h; nlinarith
  have sa : |scaleQ free occ r| ≤ 1 / 2 := by rw [abs_le]; constructor <;> nlinarith
  have h1 := abs_le.1 ((fl_err (scaleQ free occ r)).trans (div_le_div_of_nonneg_right sa (by norm_num)))
  norm_num at h1
  have sb := abs_le.1 sa
  have h2 : |x + 1 / 2| ≤ 101 / 100 := by rw [hxs, abs_le]; constructor <;> linarith [h1.1, h1.2]
  have h3 := abs_le.1 ((fl_err (x + 1 / 2)).trans (div_le_div_of_nonneg_right h2 (by norm_num)))
  norm_num at h3
  rw [e]
  refine ⟨?_, ?_, ?_, fun h => ?_, fun h => ?_⟩
  · rw [abs_le]; rw [hxs] at h3 ⊢; norm_num
    constructor <;> linarith [h1.1, h1.2, h3.1, h3.2]
  · refine fl_mono ?_
    rw [hxs]
    have := fl_mono s0
    linarith
  · rw [hxs] at h3 ⊢
    linarith [h1.2, h3.2]
  · have hs : scaleQ free occ r ≤ 0 := by
      unfold scaleQ; split
      · nlinarith
      · rename_i h4; push Not at h4; nlinarith
    have h5 := fl_mono hs
    rw [fl_zero, ← hxs] at h5
    have := fl_mono (show x + 1 / 2 ≤ 1 / 2 by linarith)
    rwa [fl_half] at this
  · have hs : 0 ≤ scaleQ free occ r := by
      unfold scaleQ; rw [if_neg (by linarith)]; exact mul_nonneg o0 h
    have h5 := fl_mono hs
    rw [fl_zero, ← hxs] at h5
    have := fl_mono (show 1 / 2 ≤ x + 1 / 2 by linarith)
    rwa [fl_half] at this

/-- The probability of free space is positive. -/
theorem freeProb {free : ℚ} (hf : IsFloat free) (f0 : 0 ≤ free) (f1 : free < 1) :
    0 < fl (fl (-1 / 2 * free) + 1 / 2) ∧ (1 - free) / 2 * (1 - 1 / 2 ^ 24) ≤ fl (fl (-1 / 2 * free) + 1 / 2) ∧ fl (fl (-1 / 2 * free) + 1 / 2) ≤ 1 / 2 := by
  have e : fl (-1 / 2 * free) = -1 / 2 * free := by
    have : -1 / 2 * free = -(free / 2 ^ 1) := by ring
    rw [this]
    exact fl_of_isFloat (hf.div_pow 1).neg
  rw [e]
  have h1 := abs_le.1 (fl_err (-1 / 2 * free + 1 / 2))
  rw [abs_of_nonneg (by linarith : 0 ≤ -1 / 2 * free + 1 / 2)] at h1
  have h2 := h1.1
  have h3 : (1 - free) / 2 * (1 - 1 / 2 ^ 24) ≤ fl (-1 / 2 * free + 1 / 2) := by norm_num at h2 ⊢; linarith
  refine ⟨lt_of_lt_of_le ?_ h3, h3, ?_⟩
  · exact mul_pos (by linarith) (by norm_num)
  · have := fl_mono (show -1 / 2 * free + 1 / 2 ≤ 1 / 2 by linarith)
    rwa [fl_half] at this

/-- `scaleQ` for real numbers. -/
noncomputable def scaleR (free occ r : ℝ) : ℝ := if r < 0 then free * r else occ * r

theorem scaleQ_cast (free occ r : ℚ) : ((scaleQ free occ r : ℚ) : ℝ) = scaleR free occ r := by
  unfold scaleQ scaleR
  have e : ((r : ℝ) < 0) ↔ r < 0 := by exact_mod_cast Iff.rfl
  simp only [e]
  split_ifs <;> push_cast <;> rfl

theorem scaleR_lip {free occ : ℝ} (f0 : 0 ≤ free) (f1 : free ≤ 1) (o0 : 0 ≤ occ) (o1 : occ ≤ 1) (r s : ℝ) : |scaleR free occ r - scaleR free occ s| ≤ |r - s| := by
  unfold scaleR
  split_ifs with h1 h2 h2
  · rw [← mul_sub, abs_mul, abs_of_nonneg f0]; nlinarith [abs_nonneg (r - s)]
  · push Not at h2
    rw [abs_of_nonpos (by nlinarith [mul_nonneg f0 (by linarith : 0 ≤ -r), mul_nonneg o0 h2]), abs_of_nonpos (by linarith : r - s ≤ 0)]
    nlinarith
  · push Not at h1
    rw [abs_of_nonneg (by nlinarith [mul_nonneg f0 (by linarith : 0 ≤ -s), mul_nonneg o0 h1]), abs_of_nonneg (by linarith : 0 ≤ r - s)]
    nlinarith
  · rw [← mul_sub, abs_mul, abs_of_nonneg o0]; nlinarith [abs_nonneg (r - s)]

theorem scaleR_range {free occ r : ℝ} (f0 : 0 ≤ free) (o0 : 0 ≤ occ) (o1 : occ ≤ 1) (r0 : -1 / 2 ≤ r) (r1 : r ≤ 93 / 200) :
    -1 / 2 * free ≤ scaleR free occ r ∧ scaleR free occ r ≤ 93 / 200 := by
  unfold scaleR
  split
  · constructor <;> nlinarith
  · rename_i h; push Not at h
    constructor <;> nlinarith [mul_nonneg o0 h]

/-! ## The odds and their logarithm -/

/-- The rounded odds. -/
def oddsOf (p : ℚ) : ℚ := fl (p / fl (1 - p))

theorem one_sub_pos {p : ℚ} (h : p < 1) : 0 < fl (1 - p) := by
  have h1 := abs_le.1 (fl_err (1 - p))
  rw [abs_of_nonneg (by linarith : 0 ≤ 1 - p)] at h1
  have := h1.1
  norm_num at this
  linarith

theorem oddsOf_mono {p q : ℚ} (h0 : 0 < p) (h : p ≤ q) (h1 : q < 1) : oddsOf p ≤ oddsOf q := by
  refine fl_mono ?_
  have hp := one_sub_pos (lt_of_le_of_lt h h1)
  have hq := one_sub_pos h1
  exact div_le_div₀ (by linarith) h hq (fl_mono (by linarith))

theorem oddsOf_half : oddsOf (1 / 2) = 1 := by decide +kernel

theorem probabilityToOdds_eq {p : ℚ} (h1 : p < 1) : probabilityToOddsSingle p = some (oddsOf p) := by
  unfold probabilityToOddsSingle
  rw [if_neg (one_sub_pos h1).ne']
  rfl

theorem oddsOf_pos {p : ℚ} (h0 : 0 < p) (h1 : p < 1) : 0 < oddsOf p := by
  obtain ⟨o, e, ho, -⟩ := C82_single_log_odds p h0 h1
  rw [probabilityToOdds_eq h1] at e
  rw [Option.some.inj e]; exact ho

theorem oddsOf_log {p : ℚ} (h0 : 0 < p) (h1 : p < 1) : |Real.log (oddsOf p) - Real.log ((p : ℝ) / (1 - p))| ≤ 1 / 2 ^ 21 := by
  obtain ⟨o, e, ho, h⟩ := C82_single_log_odds p h0 h1
  rw [probabilityToOdds_eq h1] at e
  rw [Option.some.inj e]; exact h

theorem logOdds_eq (logF : ℚ → ℚ) {p : ℚ} (h0 : 0 < p) (h1 : p < 1) : Single.logOdds logF p = some (logF (oddsOf p)) := by
  unfold Single.logOdds
  rw [probabilityToOdds_eq h1]
  exact if_pos (oddsOf_pos h0 h1)

theorem log_diff {a b m : ℝ} (hm : 0 < m) (ha : m ≤ a) (hb : m ≤ b) : |Real.log a - Real.log b| ≤ |a - b| / m := by
  have a0 := hm.trans_le ha
  have b0 := hm.trans_le hb
  have key : ∀ x y : ℝ, m ≤ x → m ≤ y → y ≤ x → Real.log x - Real.log y ≤ (x - y) / m := by
    intro x y hx hy hxy
    have y0 := hm.trans_le hy
    rw [← Real.log_div (hm.trans_le hx).ne' y0.ne']
    have h1 := Real.log_le_sub_one_of_pos (div_pos (hm.trans_le hx) y0)
    have e : x / y - 1 = (x - y) / y := by field_simp
    rw [e] at h1
    exact h1.trans (div_le_div_of_nonneg_left (by linarith) hm hy)
  rcases le_total b a with h | h
  · rw [abs_of_nonneg (by linarith [Real.log_le_log b0 h]), abs_of_nonneg (by linarith : 0 ≤ a - b)]
    exact key a b ha hb h
  · rw [abs_of_nonpos (by linarith [Real.log_le_log a0 h]), abs_of_nonpos (by linarith : a - b ≤ 0)]
    have := key b a hb ha h
    rw [neg_sub, neg_sub]; exact this

/-- The error of the logarithm of the odds when the probability is slightly wrong. `w` is the distance of the weight of free space from one. -/
theorem logit_err {p : ℚ} {Q : ℝ} {w : ℚ} (hw : 0 < w) (hw1 : w ≤ 1) (hp : w / 2 * (1 - 1 / 2 ^ 24) ≤ p) (hp1 : p ≤ 971 / 1000)
    (qr : (w : ℝ) / 2 * (1 - 1 / 2 ^ 24) ≤ Q) (qr1 : Q ≤ 971 / 1000) (hr : |(p : ℝ) - Q| ≤ 60 / 2 ^ 24) :
    |Real.log (oddsOf p) - Real.log (Q / (1 - Q))| ≤ 3 / 2 ^ 14 / w ∧ |Real.log (oddsOf p)| ≤ 40 / w := by
  have hm : 0 < w / 2 * (1 - 1 / 2 ^ 24) := mul_pos (by linarith) (by norm_num)
  have p0 : 0 < p := by linarith
  have h1 := oddsOf_log p0 (by linarith)
  have pr : ((w : ℝ) / 2 * (1 - 1 / 2 ^ 24)) ≤ (p : ℝ) := by
    have := (Rat.cast_le (K := ℝ)).2 hp
    push_cast at this
    exact this
  have pr1 : (p : ℝ) ≤ 971 / 1000 := by
    have := (Rat.cast_le (K := ℝ)).2 hp1
    push_cast at this
    exact this
  have wr : (0 : ℝ) < w := by exact_mod_cast hw
  have wr1 : (w : ℝ) ≤ 1 := by exact_mod_cast hw1
  set P := (p : ℝ)
  set W := (w : ℝ)
  have P0 : 0 < P := by norm_num at pr; linarith
  have Q0 : 0 < Q := by norm_num at qr; linarith
  have wm : (49 / 100 * W) ≤ W / 2 * (1 - 1 / 2 ^ 24) := by norm_num; linarith
  have d1 := log_diff (m := 49 / 100 * W) (by linarith) (wm.trans pr) (wm.trans qr)
  have d2 := log_diff (m := 29 / 1000) (by norm_num) (a := 1 - P) (b := 1 - Q) (by linarith) (by linarith)
  have e1 : |P - Q| / (49 / 100 * W) ≤ 100 / 49 * (60 / 2 ^ 24) / W := by
    rw [div_le_div_iff₀ (by linarith) wr]
    nlinarith
  have e2 : |1 - P - (1 - Q)| / (29 / 1000) ≤ 1000 / 29 * (60 / 2 ^ 24) := by
    have : |1 - P - (1 - Q)| = |P - Q| := by rw [abs_sub_comm P Q]; congr 1; ring
    rw [this]
    linarith
  have hWinv : 1 ≤ 1 / W := by rw [le_div_iff₀ wr]; linarith
  rw [Real.log_div P0.ne' (by linarith)] at h1
  rw [Real.log_div Q0.ne' (by linarith)]
  constructor
  · have a1 := abs_le.1 h1
    have a2 := abs_le.1 (d1.trans e1)
    have a3 := abs_le.1 (d2.trans e2)
    have e3 : 100 / 49 * (60 / 2 ^ 24) / W = 100 / 49 * (60 / 2 ^ 24) * (1 / W) := by ring
    have e4 : 3 / 2 ^ 14 / W = 3 / 2 ^ 14 * (1 / W) := by ring
    rw [e3] at a2
    rw [e4]
    generalize 1 / W = V at *
    rw [abs_le]
    norm_num at a1 a2 a3 ⊢
    constructor <;> linarith [a1.1, a1.2, a2.1, a2.2, a3.1, a3.2]
  · have b1 : Real.log P ≤ 0 := Real.log_nonpos P0.le (by linarith)
    have b2 : Real.log (1 - P) ≤ 0 := Real.log_nonpos (by linarith) (by linarith)
    have b3 : 1 - 1 / P ≤ Real.log P := by
      have := Real.one_sub_inv_le_log_of_pos P0; rwa [← one_div] at this
    have b4 : 1 - 1 / (1 - P) ≤ Real.log (1 - P) := by
      have := Real.one_sub_inv_le_log_of_pos (show 0 < 1 - P by linarith); rwa [← one_div] at this
    have b5 : 1 / P ≤ 100 / 49 * (1 / W) := by
      have e : 100 / 49 * (1 / W) = 1 / (49 / 100 * W) := by field_simp
      rw [e]
      exact one_div_le_one_div_of_le (by linarith) (wm.trans pr)
    have b6 : 1 / (1 - P) ≤ 1000 / 29 := by
      rw [div_le_iff₀ (by linarith)]; linarith
    have e4 : 40 / W = 40 * (1 / W) := by ring
    rw [e4]
    have a1 := abs_le.1 h1
    generalize 1 / W = V at *
    rw [abs_le]
    norm_num at a1 ⊢
    constructor <;> linarith [a1.1, a1.2]

/-! ## Thresholds -/

theorem lt_of_lt_fl {d x : ℚ} (hd : IsFloat d) (h : d < fl x) : d < x := by
  by_contra h2
  push Not at h2
  have := fl_mono h2
  rw [fl_of_isFloat hd] at this
  linarith

theorem lt_of_fl_lt {d x : ℚ} (hd : IsFloat d) (h : fl x < d) : x < d := by
  by_contra h2
  push Not at h2
  have := fl_mono h2
  rw [fl_of_isFloat hd] at this
  linarith

theorem fl_pos_near {x : ℚ} (h : 0 ≤ x) : x * (1 - 1 / 2 ^ 24) ≤ fl x ∧ fl x ≤ x * (1 + 1 / 2 ^ 24) := by
  have h1 := abs_le.1 (fl_err x)
  rw [abs_of_nonneg h] at h1
  constructor <;> (norm_num at h1 ⊢; linarith [h1.1, h1.2])

/-- The offset in sigmas. -/
theorem offset_err (d m s : ℚ) : ∃ T, Sc 2 T ∧ fl (fl (d - m) / s) = (d - m) / s * T := by
  obtain ⟨t1, h1, e1⟩ := fl_sc (d - m)
  obtain ⟨t2, h2, e2⟩ := fl_sc (fl (d - m) / s)
  exact ⟨t1 * t2, h1.mul h2, by rw [e2, e1]; ring⟩

/-- In free space the exact contribution is almost `-1/2`. -/
theorem free_near {d m s : ℚ} (hs : 0 < s) (hd : IsFloat d) (h : d < fl (m - fl (3 * s))) : |rangeQ ((d - m) / s) - -1 / 2| ≤ 2 / 2 ^ 24 := by
  have h1 := lt_of_lt_fl hd h
  have h2 := (fl_pos_near (x := 3 * s) (by linarith)).1
  have h3 : (d - m) / s ≤ -3 + 3 / 2 ^ 24 := by
    rw [div_le_iff₀ hs]
    norm_num at h2 ⊢
    linarith
  rcases le_or_gt ((d - m) / s) (-3) with h4 | h4
  · rw [rangeQ_low h4]; norm_num
  · have h5 := rangeQ_lip ((d - m) / s) (-3)
    rw [rangeQ_low le_rfl] at h5
    refine h5.trans ?_
    rw [abs_of_nonneg (by linarith)]
    norm_num at h3 ⊢
    linarith

end SingleMeasurement
end Wavemap
