import Verif.Props.LidarProjectors
import Mathlib.Analysis.LocallyConvex.Separation
/-!
# C59, C70: the azimuth interval of a cell

For both lidars the azimuth interval of a cell that does not meet the sensor's vertical axis contains the azimuth of each of its points, also where the interval wraps
around at `±π` and in spite of the approximated arc tangent.
-/
namespace Wavemap
noncomputable section

/-! ## The approximated angle is increasing -/

/-- The approximated angle as a function of the angle, in `(-π, π]`. -/
def directionAngle (θ : ℝ) : ℝ :=
  if θ < -(Real.pi / 2) then slopeAngle (Real.tan θ) - Real.pi
  else if θ = -(Real.pi / 2) then -(Real.pi / 2)
  else if θ < Real.pi / 2 then slopeAngle (Real.tan θ)
  else if θ = Real.pi / 2 then Real.pi / 2
  else slopeAngle (Real.tan θ) + Real.pi

theorem directionAngle_cases (θ : ℝ) :
    (θ < -(Real.pi / 2) ∧ directionAngle θ = slopeAngle (Real.tan θ) - Real.pi) ∨
    (θ = -(Real.pi / 2) ∧ directionAngle θ = -(Real.pi / 2)) ∨
    (-(Real.pi / 2) < θ ∧ θ < Real.pi / 2 ∧ directionAngle θ = slopeAngle (Real.tan θ)) ∨
    (θ = Real.pi / 2 ∧ directionAngle θ = Real.pi / 2) ∨
    (Real.pi / 2 < θ ∧ directionAngle θ = slopeAngle (Real.tan θ) + Real.pi) := by
  have hpi := Real.pi_pos
  unfold directionAngle
  rcases lt_trichotomy θ (-(Real.pi / 2)) with h | h | h
  · left; rw [if_pos h]; exact ⟨h, rfl⟩
  · right; left; rw [if_neg (by linarith), if_pos h]; exact ⟨h, rfl⟩
  · rw [if_neg (by linarith), if_neg h.ne']
    rcases lt_trichotomy θ (Real.pi / 2) with h' | h' | h'
    · right; right; left; rw [if_pos h']; exact ⟨h, h', rfl⟩
    · right; right; right; left; rw [if_neg (by linarith), if_pos h']; exact ⟨h', rfl⟩
    · right; right; right; right; rw [if_neg (by linarith), if_neg h'.ne']; exact ⟨h', rfl⟩

theorem approxAtan2_back {y x : ℝ} (hx : x < 0) :
    approxAtan2 y x = some (slopeAngle (y / x) + if 0 ≤ y then Real.pi else -Real.pi) := by
  have hf := approxAtan2_front (-y) (-x) (by linarith)
  rw [neg_div_neg_eq] at hf
  by_cases h : |x| < |y|
  · have h' : |-x| < |-y| := by rwa [abs_neg, abs_neg]
    rw [approxAtan2_steep h'] at hf
    rw [approxAtan2_steep h]
    rw [neg_div_neg_eq, Option.some.injEq] at hf
    rw [← hf, Option.some.injEq]
    rcases lt_trichotomy y 0 with hy | hy | hy
    · rw [if_neg (by linarith), if_pos (by linarith), if_neg (by linarith)]; ring
    · rw [hy, abs_zero] at h; exact absurd h (not_lt.2 (abs_nonneg _))
    · rw [if_pos hy, if_neg (by linarith), if_pos hy.le]; ring
  · rw [not_lt] at h
    have h' : |-y| ≤ |-x| := by rwa [abs_neg, abs_neg]
    rw [approxAtan2_flat h' (by linarith)] at hf
    rw [approxAtan2_flat h hx.ne]
    rw [neg_div_neg_eq, Option.some.injEq, if_neg (by linarith), zero_add] at hf
    rw [← hf, if_pos hx, add_comm]

theorem approxAtan2_direction {r θ : ℝ} (hr : 0 < r) (h1 : -Real.pi < θ) (h2 : θ ≤ Real.pi) :
    approxAtan2 (r * Real.sin θ) (r * Real.cos θ) = some (directionAngle θ) := by
  have hpi := Real.pi_pos
  rw [approxAtan2_scale hr]
  rcases directionAngle_cases θ with ⟨h, e⟩ | ⟨h, e⟩ | ⟨h, h', e⟩ | ⟨h, e⟩ | ⟨h, e⟩ <;> rw [e]
  · have hc : Real.cos θ < 0 := by
      rw [← Real.cos_neg]; exact Real.cos_neg_of_pi_div_two_lt_of_lt (by linarith) (by linarith)
    have hs : Real.sin θ < 0 := Real.sin_neg_of_neg_of_neg_pi_lt (by linarith) h1
    rw [approxAtan2_back hc, if_neg (by linarith), Real.tan_eq_sin_div_cos]
    rfl
  · rw [h, Real.sin_neg, Real.cos_neg, Real.sin_pi_div_two, Real.cos_pi_div_two, approxAtan2_steep (by norm_num), if_neg (by norm_num),
      zero_div, approxAtan_zero, sub_zero]
  · rw [approxAtan2_front _ _ (Real.cos_pos_of_mem_Ioo ⟨h, h'⟩), Real.tan_eq_sin_div_cos]
  · rw [h, Real.sin_pi_div_two, Real.cos_pi_div_two, approxAtan2_steep (by norm_num), if_pos (by norm_num), zero_div, approxAtan_zero, sub_zero]
  · have hc : Real.cos θ < 0 := Real.cos_neg_of_pi_div_two_lt_of_lt h (by linarith)
    have hs : 0 ≤ Real.sin θ := Real.sin_nonneg_of_nonneg_of_le_pi (by linarith) h2
    rw [approxAtan2_back hc, if_pos hs, Real.tan_eq_sin_div_cos]

theorem directionAngle_lt {a b : ℝ} (h1 : -Real.pi < a) (h : a < b) (h2 : b ≤ Real.pi) : directionAngle a < directionAngle b := by
  have hpi := Real.pi_pos
  have sa := slopeAngle_bound_lt (Real.tan a)
  have sb := slopeAngle_bound_lt (Real.tan b)
  have m1 : b < -(Real.pi / 2) → slopeAngle (Real.tan a) < slopeAngle (Real.tan b) := fun hb => by
    rw [← Real.tan_add_pi a, ← Real.tan_add_pi b]
    exact slopeAngle_lt (Real.tan_lt_tan_of_lt_of_lt_pi_div_two (by linarith) (by linarith) (by linarith))
  have m2 : -(Real.pi / 2) < a → b < Real.pi / 2 → slopeAngle (Real.tan a) < slopeAngle (Real.tan b) := fun ha hb =>
    slopeAngle_lt (Real.tan_lt_tan_of_lt_of_lt_pi_div_two ha hb h)
  have m3 : Real.pi / 2 < a → slopeAngle (Real.tan a) < slopeAngle (Real.tan b) := fun ha => by
    rw [← Real.tan_sub_pi a, ← Real.tan_sub_pi b]
    exact slopeAngle_lt (Real.tan_lt_tan_of_lt_of_lt_pi_div_two (by linarith) (by linarith) (by linarith))
  rcases directionAngle_cases a with ⟨g, e⟩ | ⟨g, e⟩ | ⟨g, g', e⟩ | ⟨g, e⟩ | ⟨g, e⟩ <;>
  rcases directionAngle_cases b with ⟨k, f⟩ | ⟨k, f⟩ | ⟨k, k', f⟩ | ⟨k, f⟩ | ⟨k, f⟩ <;> rw [e, f] <;>
  first
    | linarith
    | linarith [m1 k]
    | linarith [m2 g k']
    | linarith [m3 g]
    | (exfalso; linarith)

theorem directionAngle_le {a b : ℝ} (h1 : -Real.pi < a) (h : a ≤ b) (h2 : b ≤ Real.pi) : directionAngle a ≤ directionAngle b := by
  rcases h.lt_or_eq with h | h
  · exact (directionAngle_lt h1 h h2).le
  · rw [h]

theorem directionAngle_sub_pi {θ : ℝ} (h1 : 0 < θ) (h2 : θ ≤ Real.pi) : directionAngle (θ - Real.pi) = directionAngle θ - Real.pi := by
  have hpi := Real.pi_pos
  rcases directionAngle_cases θ with ⟨g, e⟩ | ⟨g, e⟩ | ⟨g, g', e⟩ | ⟨g, e⟩ | ⟨g, e⟩ <;>
  rcases directionAngle_cases (θ - Real.pi) with ⟨k, f⟩ | ⟨k, f⟩ | ⟨k, k', f⟩ | ⟨k, f⟩ | ⟨k, f⟩ <;>
  first
    | (exfalso; linarith)
    | (rw [e, f, Real.tan_sub_pi]; done)
    | (rw [e, f, Real.tan_sub_pi]; ring)
    | (rw [e, f]; ring)

theorem directionAngle_zero : directionAngle 0 = 0 := by
  have hpi := Real.pi_pos
  unfold directionAngle
  rw [if_neg (by linarith), if_neg (by linarith), if_pos (by linarith), Real.tan_zero, slopeAngle_mid (by norm_num) (by norm_num), approxAtan_zero]

theorem directionAngle_pi : directionAngle Real.pi = Real.pi := by
  have := directionAngle_sub_pi Real.pi_pos le_rfl
  rw [sub_self, directionAngle_zero] at this
  linarith

theorem directionAngle_pos {θ : ℝ} (h1 : -Real.pi < θ) (h2 : θ ≤ Real.pi) : 0 < directionAngle θ ↔ 0 < θ := by
  have hpi := Real.pi_pos
  constructor
  · intro h
    by_contra hcon
    have := directionAngle_le h1 (not_lt.1 hcon) hpi.le
    rw [directionAngle_zero] at this
    linarith
  · intro h
    have := directionAngle_lt (by linarith) h h2
    rwa [directionAngle_zero] at this

/-! ## The two folds over the corners -/

theorem foldMin_spec (a : Fin 8 → ℝ) (l : List (Fin 8)) (m : Option ℝ) (j : Fin 8) (hj : j ∈ l) (hpos : 0 < a j) :
    ∃ v, l.foldl (fun m i => if 0 < a i then some (match m with | none => a i | some v => min v (a i)) else m) m = some v ∧ v ≤ a j ∧
      (m = some v ∨ ∃ i, 0 < a i ∧ v = a i) := by
  have gen : ∀ (l : List (Fin 8)) (w : ℝ), ∃ v,
      l.foldl (fun m i => if 0 < a i then some (match m with | none => a i | some v => min v (a i)) else m) (some w) = some v ∧ v ≤ w ∧
        (v = w ∨ ∃ i, 0 < a i ∧ v = a i) := by
    intro l
    induction l with
    | nil => intro w; exact ⟨w, rfl, le_rfl, Or.inl rfl⟩
    | cons i l ih =>
      intro w
      rw [List.foldl_cons]
      by_cases hi : 0 < a i
      · rw [if_pos hi]
        obtain ⟨v, h1, h2, h3⟩ := ih (min w (a i))
        refine ⟨v, h1, h2.trans (min_le_left _ _), ?_⟩
        rcases h3 with h3 | h3
        · rcases min_choice w (a i) with h | h
          · exact Or.inl (h3.trans h)
          · exact Or.inr ⟨i, hi, h3.trans h⟩
        · exact Or.inr h3
      · rw [if_neg hi]
        exact ih w
  induction l generalizing m with
  | nil => cases hj
  | cons i l ih =>
    rw [List.foldl_cons]
    rcases List.mem_cons.1 hj with rfl | hj
    · rw [if_pos hpos]
      cases m with
      | none =>
        obtain ⟨v, h1, h2, h3⟩ := gen l (a j)
        exact ⟨v, h1, h2, Or.inr (h3.elim (fun h => ⟨j, hpos, h⟩) id)⟩
      | some w =>
        obtain ⟨v, h1, h2, h3⟩ := gen l (min w (a j))
        refine ⟨v, h1, h2.trans (min_le_right _ _), ?_⟩
        rcases h3 with h3 | h3
        · rcases min_choice w (a j) with h | h
          · exact Or.inl (by rw [h3, h])
          · exact Or.inr ⟨j, hpos, h3.trans h⟩
        · exact Or.inr h3
    · obtain ⟨v, h1, h2, h3⟩ := ih (if 0 < a i then some (match m with | none => a i | some v => min v (a i)) else m) hj
      refine ⟨v, h1, h2, ?_⟩
      rcases h3 with h3 | h3
      · by_cases hi : 0 < a i
        · rw [if_pos hi] at h3
          cases m with
          | none => exact Or.inr ⟨i, hi, (Option.some.inj h3).symm⟩
          | some w =>
            have h3 := Option.some.inj h3
            rcases min_choice w (a i) with h | h
            · exact Or.inl (by rw [← h3]; exact congrArg some h.symm)
            · exact Or.inr ⟨i, hi, by rw [← h3]; exact h⟩
        · rw [if_neg hi] at h3
          exact Or.inl h3
      · exact Or.inr h3

theorem foldMax_eq (a : Fin 8 → ℝ) (l : List (Fin 8)) (m : Option ℝ) (h0 : ∀ i, a i ≠ 0) :
    (l.foldl (fun m i => if 0 < a i then m else some (match m with | none => a i | some v => max v (a i))) m).map (fun v => -v) =
    l.foldl (fun m i => if 0 < -a i then some (match m with | none => -a i | some v => min v (-a i)) else m) (m.map fun v => -v) := by
  induction l generalizing m with
  | nil => rfl
  | cons i l ih =>
    rw [List.foldl_cons, List.foldl_cons, ih]
    congr 1
    rcases lt_or_gt_of_ne (h0 i) with h | h
    · rw [if_neg (by linarith), if_pos (by linarith)]
      cases m with
      | none => rfl
      | some w =>
        simp only [Option.map_some, Option.some.injEq]
        exact (min_neg_neg w (a i)).symm
    · rw [if_pos h, if_neg (by linarith)]

theorem foldMax_spec (a : Fin 8 → ℝ) (h0 : ∀ i, a i ≠ 0) (j : Fin 8) (hneg : a j < 0) :
    ∃ v, (List.finRange 8).foldl (fun m i => if 0 < a i then m else some (match m with | none => a i | some v => max v (a i))) none = some v ∧
      a j ≤ v ∧ ∃ i, a i < 0 ∧ v = a i := by
  have h := foldMax_eq a (List.finRange 8) none h0
  obtain ⟨v, h1, h2, h3⟩ := foldMin_spec (fun i => -a i) (List.finRange 8) none j (List.mem_finRange j) (by simpa using hneg)
  simp only [Option.map_none] at h
  rw [h1] at h
  cases hf : (List.finRange 8).foldl (fun m i => if 0 < a i then m else some (match m with | none => a i | some v => max v (a i))) none with
  | none => rw [hf] at h; cases h
  | some w =>
    rw [hf] at h
    simp only [Option.map_some, Option.some.injEq] at h
    refine ⟨w, rfl, by linarith, ?_⟩
    rcases h3 with h3 | ⟨i, h3, h4⟩
    · cases h3
    · exact ⟨i, by linarith, by linarith⟩

/-! ## The interval of a set of directions less than half a turn apart -/

/-- The approximated angle of a direction given by an angle in `(-π, 3π]`. -/
def turnAngle (t : ℝ) : ℝ := if t ≤ Real.pi then directionAngle t else directionAngle (t - 2 * Real.pi)

theorem interval_no_wrap (t : Fin 8 → ℝ) (tp : ℝ) (hlo : ∀ i, -Real.pi < t i) (hhi : ∀ i, t i ≤ Real.pi) (hspread : ∀ i j, t i - t j < Real.pi)
    (hlower : ∃ i, t i ≤ tp) (hupper : ∃ i, tp ≤ t i) :
    InAngles (angleInterval true fun i => directionAngle (t i)) (directionAngle tp) := by
  have hpi := Real.pi_pos
  obtain ⟨il, hil⟩ := Finite.exists_min t
  obtain ⟨iu, hiu⟩ := Finite.exists_max t
  obtain ⟨i, hi⟩ := hlower
  obtain ⟨j, hj⟩ := hupper
  have b1 : cornerMin (fun i => directionAngle (t i)) ≤ directionAngle tp :=
    (cornerMin_le (fun i => directionAngle (t i)) i).trans (directionAngle_le (hlo i) hi (hj.trans (hhi j)))
  have b2 : directionAngle tp ≤ cornerMax (fun i => directionAngle (t i)) :=
    le_trans (directionAngle_le (lt_of_lt_of_le (hlo i) hi) hj (hhi j)) (le_cornerMax (fun i => directionAngle (t i)) j)
  have c1 : cornerMax (fun i => directionAngle (t i)) ≤ directionAngle (t iu) :=
    cornerMax_le _ _ fun i => directionAngle_le (hlo i) (hiu i) (hhi iu)
  have c2 : directionAngle (t il) ≤ cornerMin (fun i => directionAngle (t i)) :=
    le_cornerMin _ _ fun i => directionAngle_le (hlo il) (hil i) (hhi i)
  have c3 : directionAngle (t iu) ≤ directionAngle (t il) + Real.pi := by
    rcases le_or_gt (t il) 0 with h | h
    · have h1 := directionAngle_sub_pi (θ := t il + Real.pi) (by linarith [hlo il]) (by linarith)
      rw [add_sub_cancel_right] at h1
      have h2 := directionAngle_le (hlo iu) (by linarith [hspread iu il] : t iu ≤ t il + Real.pi) (by linarith)
      linarith
    · have h1 := directionAngle_le (hlo iu) (hhi iu) le_rfl
      rw [directionAngle_pi] at h1
      have h2 := (directionAngle_pos (hlo il) (hhi il)).2 h
      linarith
  refine ⟨cornerMin fun i => directionAngle (t i), cornerMax fun i => directionAngle (t i), ?_, ?_⟩
  · unfold angleInterval
    dsimp only
    rw [if_neg (by rintro ⟨_, h⟩; linarith)]
  · rw [if_neg (by linarith)]
    exact ⟨b1, b2⟩

theorem interval_contains (t : Fin 8 → ℝ) (tp : ℝ) (hlo : ∀ i, -Real.pi < t i) (hhi : ∀ i, t i ≤ 3 * Real.pi)
    (hspread : ∀ i j, t i - t j < Real.pi) (hlower : ∃ i, t i ≤ tp) (hupper : ∃ i, tp ≤ t i) :
    InAngles (angleInterval true fun i => turnAngle (t i)) (turnAngle tp) := by
  have hpi := Real.pi_pos
  obtain ⟨il, hil⟩ := Finite.exists_min t
  obtain ⟨iu, hiu⟩ := Finite.exists_max t
  by_cases hA : t iu ≤ Real.pi
  · have e : (fun i => turnAngle (t i)) = fun i => directionAngle (t i) := by
      funext i
      unfold turnAngle
      rw [if_pos ((hiu i).trans hA)]
    obtain ⟨j, hj⟩ := hupper
    have e' : turnAngle tp = directionAngle tp := by
      unfold turnAngle
      rw [if_pos ((hj.trans (hiu j)).trans hA)]
    rw [e, e']
    exact interval_no_wrap t tp hlo (fun i => (hiu i).trans hA) hspread hlower ⟨j, hj⟩
  · by_cases hB : Real.pi < t il
    · have e : (fun i => turnAngle (t i)) = fun i => directionAngle (t i - 2 * Real.pi) := by
        funext i
        unfold turnAngle
        rw [if_neg (by linarith [hil i])]
      obtain ⟨j, hj⟩ := hlower
      have e' : turnAngle tp = directionAngle (tp - 2 * Real.pi) := by
        unfold turnAngle
        rw [if_neg (by linarith [hil j])]
      rw [e, e']
      obtain ⟨k, hk⟩ := hupper
      exact interval_no_wrap (fun i => t i - 2 * Real.pi) (tp - 2 * Real.pi) (fun i => by linarith [hil i]) (fun i => by linarith [hhi i])
        (fun i j => by linarith [hspread i j]) ⟨j, by linarith⟩ ⟨k, by linarith⟩
    · rw [not_le] at hA
      rw [not_lt] at hB
      have hpos : 0 < t il := by linarith [hspread iu il]
      have hbig : t iu < 2 * Real.pi := by linarith [hspread iu il]
      have vpos : ∀ s, t il ≤ s → s ≤ Real.pi → turnAngle s = directionAngle s ∧ 0 < turnAngle s ∧ directionAngle (t il) ≤ turnAngle s := by
        intro s h1 h2
        have e : turnAngle s = directionAngle s := by unfold turnAngle; rw [if_pos h2]
        rw [e]
        exact ⟨rfl, (directionAngle_pos (by linarith) h2).2 (by linarith), directionAngle_le (hlo il) h1 h2⟩
      have vneg : ∀ s, Real.pi < s → s ≤ t iu → turnAngle s = directionAngle (s - 2 * Real.pi) ∧ turnAngle s < 0 ∧
          turnAngle s ≤ directionAngle (t iu - 2 * Real.pi) := by
        intro s h1 h2
        have e : turnAngle s = directionAngle (s - 2 * Real.pi) := by unfold turnAngle; rw [if_neg (by linarith)]
        rw [e]
        refine ⟨rfl, ?_, directionAngle_le (by linarith) (by linarith) (by linarith)⟩
        have := directionAngle_lt (a := s - 2 * Real.pi) (b := 0) (by linarith) (by linarith) hpi.le
        rwa [directionAngle_zero] at this
      have vil := vpos (t il) le_rfl hB
      have viu := vneg (t iu) hA le_rfl
      have hgap : directionAngle (t iu - 2 * Real.pi) + Real.pi < directionAngle (t il) := by
        have h1 := directionAngle_sub_pi (θ := t iu - Real.pi) (by linarith) (by linarith)
        rw [show t iu - Real.pi - Real.pi = t iu - 2 * Real.pi by ring] at h1
        have h2 := directionAngle_lt (a := t iu - Real.pi) (b := t il) (by linarith) (by linarith [hspread iu il]) hB
        linarith
      have h0 : ∀ i, turnAngle (t i) ≠ 0 := by
        intro i
        rcases le_or_gt (t i) Real.pi with h | h
        · exact (vpos (t i) (hil i) h).2.1.ne'
        · exact (vneg (t i) h (hiu i)).2.1.ne
      obtain ⟨v, v1, v2, v3⟩ := foldMin_spec (fun i => turnAngle (t i)) (List.finRange 8) none il (List.mem_finRange il) vil.2.1
      obtain ⟨w, w1, w2, w3⟩ := foldMax_spec (fun i => turnAngle (t i)) h0 iu viu.2.1
      have v4 : directionAngle (t il) ≤ v := by
        rcases v3 with v3 | ⟨i, hi, rfl⟩
        · cases v3
        · rcases le_or_gt (t i) Real.pi with h | h
          · exact (vpos (t i) (hil i) h).2.2
          · exact absurd hi (not_lt.2 (vneg (t i) h (hiu i)).2.1.le)
      have w4 : w ≤ directionAngle (t iu - 2 * Real.pi) := by
        obtain ⟨i, hi, rfl⟩ := w3
        rcases le_or_gt (t i) Real.pi with h | h
        · exact absurd hi (not_lt.2 (vpos (t i) (hil i) h).2.1.le)
        · exact (vneg (t i) h (hiu i)).2.2
      refine ⟨v, w, ?_, ?_⟩
      · unfold angleInterval
        dsimp only
        have m1 := le_cornerMax (fun i => turnAngle (t i)) il
        have m2 := cornerMin_le (fun i => turnAngle (t i)) iu
        rw [if_pos ⟨rfl, by linarith [vil.1, viu.1]⟩]
        exact Prod.ext v1 w1
      · rw [if_pos (by linarith)]
        obtain ⟨i, hi⟩ := hlower
        obtain ⟨j, hj⟩ := hupper
        rcases le_or_gt tp Real.pi with h | h
        · left
          exact v2.trans (by have := (vpos tp ((hil i).trans hi) h).2.2; rw [← vil.1] at this; exact this)
        · right
          exact le_trans (by have := (vneg tp h (hj.trans (hiu j))).2.2; rw [← viu.1] at this; exact this) w2

/-! ## Cells off the vertical axis -/

theorem exists_direction (R : Fin 3 → Vec3) (t lo hi p : Vec3) (hp : InCell lo hi p)
    (haxis : ∀ q, InCell lo hi q → ¬ (toSensorFrame R t q 0 = 0 ∧ toSensorFrame R t q 1 = 0)) :
    ∃ α, 0 ≤ α ∧ α < 2 * Real.pi ∧
      ∀ q, InCell lo hi q → 0 < toSensorFrame R t q 0 * Real.cos α + toSensorFrame R t q 1 * Real.sin α := by
  let φ : Vec3 → ℝ × ℝ := fun q => (toSensorFrame R t q 0, toSensorFrame R t q 1)
  have hcomb : ∀ (x y : Vec3) (a b : ℝ), a + b = 1 → a • φ x + b • φ y = φ (a • x + b • y) := by
    intro x y a b hab
    have key : ∀ k, a * toSensorFrame R t x k + b * toSensorFrame R t y k = toSensorFrame R t (a • x + b • y) k := by
      intro k
      unfold toSensorFrame
      simp only [Fin.sum_univ_three, Pi.add_apply, Pi.smul_apply, smul_eq_mul]
      linear_combination (-(R k 0 * t 0 + R k 1 * t 1 + R k 2 * t 2)) * hab
    exact Prod.ext (key 0) (key 1)
  have hconv : Convex ℝ (φ '' Set.Icc lo hi) := by
    rintro _ ⟨x, hx, rfl⟩ _ ⟨y, hy, rfl⟩ a b ha hb hab
    exact ⟨a • x + b • y, convex_Icc lo hi hx hy ha hb hab, (hcomb x y a b hab).symm⟩
  have hcont : Continuous φ := by
    refine Continuous.prodMk ?_ ?_ <;>
    · unfold toSensorFrame
      fun_prop
  have hclosed : IsClosed (φ '' Set.Icc lo hi) := (isCompact_Icc.image hcont).isClosed
  have h0 : (0 : ℝ × ℝ) ∉ φ '' Set.Icc lo hi := by
    rintro ⟨q, hq, h⟩
    refine haxis q (fun k => ⟨hq.1 k, hq.2 k⟩) ⟨congrArg Prod.fst h, congrArg Prod.snd h⟩
  obtain ⟨f, u, hf0, hf⟩ := geometric_hahn_banach_point_closed hconv hclosed h0
  rw [map_zero] at hf0
  have hlin : ∀ q, f (φ q) = toSensorFrame R t q 0 * f (1, 0) + toSensorFrame R t q 1 * f (0, 1) := by
    intro q
    have : φ q = toSensorFrame R t q 0 • ((1, 0) : ℝ × ℝ) + toSensorFrame R t q 1 • ((0, 1) : ℝ × ℝ) := by
      ext <;> simp [φ]
    rw [this, map_add, map_smul, map_smul]
    rfl
  have hposf : ∀ q, InCell lo hi q → 0 < f (φ q) := fun q hq =>
    hf0.trans (hf _ ⟨q, ⟨fun k => (hq k).1, fun k => (hq k).2⟩, rfl⟩)
  have hne : f (1, 0) * f (1, 0) + f (0, 1) * f (0, 1) ≠ 0 := by
    intro h
    have h1 : f (1, 0) = 0 := by nlinarith [mul_self_nonneg (f (1, 0)), mul_self_nonneg (f (0, 1))]
    have h2 : f (0, 1) = 0 := by nlinarith [mul_self_nonneg (f (1, 0)), mul_self_nonneg (f (0, 1))]
    have := hposf p hp
    rw [hlin, h1, h2] at this
    simp at this
  obtain ⟨α, a1, a2, a3, a4⟩ := polar _ _ hne
  have hs : 0 < Real.sqrt (f (1, 0) * f (1, 0) + f (0, 1) * f (0, 1)) :=
    Real.sqrt_pos.2 (lt_of_le_of_ne (add_nonneg (mul_self_nonneg _) (mul_self_nonneg _)) hne.symm)
  have hmain : ∀ q, InCell lo hi q → 0 < toSensorFrame R t q 0 * Real.cos α + toSensorFrame R t q 1 * Real.sin α := by
    intro q hq
    have h := hposf q hq
    rw [hlin] at h
    have : 0 < Real.sqrt (f (1, 0) * f (1, 0) + f (0, 1) * f (0, 1)) * (toSensorFrame R t q 0 * Real.cos α + toSensorFrame R t q 1 * Real.sin α) := by
      refine lt_of_lt_of_eq h ?_
      linear_combination (toSensorFrame R t q 0) * a3 + (toSensorFrame R t q 1) * a4
    exact (mul_pos_iff_of_pos_left hs).1 this
  have hpi := Real.pi_pos
  rcases le_or_gt 0 α with h | h
  · exact ⟨α, h, by linarith, hmain⟩
  · refine ⟨α + 2 * Real.pi, by linarith, by linarith, ?_⟩
    rw [Real.cos_add_two_pi, Real.sin_add_two_pi]
    exact hmain

/-- A direction in polar coordinates relative to another one. -/
theorem approxAtan2_relative {α x y : ℝ} (h1 : 0 ≤ α) (h2 : α < 2 * Real.pi) (hd : 0 < x * Real.cos α + y * Real.sin α) :
    approxAtan2 y x = some (turnAngle (α + Real.arctan ((y * Real.cos α - x * Real.sin α) / (x * Real.cos α + y * Real.sin α)))) := by
  have hpi := Real.pi_pos
  have hα := Real.sin_sq_add_cos_sq α
  have hx : x = (x * Real.cos α + y * Real.sin α) * Real.cos α - (y * Real.cos α - x * Real.sin α) * Real.sin α := by
    linear_combination (-x) * hα
  have hy : y = (x * Real.cos α + y * Real.sin α) * Real.sin α + (y * Real.cos α - x * Real.sin α) * Real.cos α := by
    linear_combination (-y) * hα
  generalize x * Real.cos α + y * Real.sin α = d at *
  generalize y * Real.cos α - x * Real.sin α = c at *
  have b1 := Real.neg_pi_div_two_lt_arctan (c / d)
  have b2 := Real.arctan_lt_pi_div_two (c / d)
  have htan := Real.tan_arctan (c / d)
  have hcos := Real.cos_arctan_pos (c / d)
  generalize Real.arctan (c / d) = β at *
  have hc : c = d / Real.cos β * Real.sin β := by
    rw [Real.tan_eq_sin_div_cos] at htan
    field_simp at htan ⊢
    linarith
  have hd' : d = d / Real.cos β * Real.cos β := by field_simp
  have hr : 0 < d / Real.cos β := div_pos hd hcos
  have ex : x = d / Real.cos β * Real.cos (α + β) := by
    rw [Real.cos_add, hx, hc]
    nth_rewrite 1 [hd']
    ring
  have ey : y = d / Real.cos β * Real.sin (α + β) := by
    rw [Real.sin_add, hy, hc]
    nth_rewrite 1 [hd']
    ring
  unfold turnAngle
  rw [ex, ey]
  by_cases h : α + β ≤ Real.pi
  · rw [if_pos h]
    exact approxAtan2_direction hr (by linarith) h
  · rw [if_neg h, ← Real.sin_sub_two_pi (α + β), ← Real.cos_sub_two_pi (α + β)]
    exact approxAtan2_direction hr (by linarith) (by linarith)

/-- For a cell that does not meet the sensor's vertical axis, the interval computed from the azimuths of its corners contains the azimuth of every point of it. -/
theorem azimuth_interval (R : Fin 3 → Vec3) (t lo hi : Vec3)
    (haxis : ∀ q, InCell lo hi q → ¬ (toSensorFrame R t q 0 = 0 ∧ toSensorFrame R t q 1 = 0)) (corners : Fin 8 → ℝ)
    (hcorners : ∀ i, approxAtan2 (sensorFrameCorner R t lo hi i 1) (sensorFrameCorner R t lo hi i 0) = some (corners i)) (p : Vec3)
    (hp : InCell lo hi p) (a : ℝ) (ha : approxAtan2 (toSensorFrame R t p 1) (toSensorFrame R t p 0) = some a) :
    InAngles (angleInterval true corners) a := by
  have hpi := Real.pi_pos
  obtain ⟨α, a1, a2, hdot⟩ := exists_direction R t lo hi p hp haxis
  have hcell : ∀ i, InCell lo hi (worldCorner lo hi i) := by
    intro i k
    have := (hp k).1.trans (hp k).2
    unfold worldCorner
    split
    · exact ⟨this, le_rfl⟩
    · exact ⟨le_rfl, this⟩
  have hd : ∀ i, 0 < sensorFrameCorner R t lo hi i 0 * Real.cos α + sensorFrameCorner R t lo hi i 1 * Real.sin α := fun i => by
    rw [sensorFrameCorner_eq]; exact hdot _ (hcell i)
  have hdp := hdot p hp
  let slope : Vec3 → ℝ := fun q => (q 1 * Real.cos α - q 0 * Real.sin α) / (q 0 * Real.cos α + q 1 * Real.sin α)
  have ec : corners = fun i => turnAngle (α + Real.arctan (slope (sensorFrameCorner R t lo hi i))) := by
    funext i
    have := hcorners i
    rw [approxAtan2_relative a1 a2 (hd i), Option.some.injEq] at this
    exact this.symm
  have ea : a = turnAngle (α + Real.arctan (slope (toSensorFrame R t p))) := by
    rw [approxAtan2_relative a1 a2 hdp, Option.some.injEq] at ha
    exact ha.symm
  rw [ec, ea]
  have arc1 : ∀ x, -(Real.pi / 2) < Real.arctan x := Real.neg_pi_div_two_lt_arctan
  have arc2 : ∀ x, Real.arctan x < Real.pi / 2 := Real.arctan_lt_pi_div_two
  have hpc : slope (toSensorFrame R t p) * (toSensorFrame R t p 0 * Real.cos α + toSensorFrame R t p 1 * Real.sin α) =
      toSensorFrame R t p 1 * Real.cos α - toSensorFrame R t p 0 * Real.sin α := div_mul_cancel₀ _ hdp.ne'
  refine interval_contains _ _ (fun i => by linarith [arc1 (slope (sensorFrameCorner R t lo hi i))])
    (fun i => by linarith [arc2 (slope (sensorFrameCorner R t lo hi i))])
    (fun i j => by linarith [arc1 (slope (sensorFrameCorner R t lo hi j)), arc2 (slope (sensorFrameCorner R t lo hi i))]) ?_ ?_
  · obtain ⟨i, hi'⟩ := affine_le_corner R t lo hi p hp
      ![slope (toSensorFrame R t p) * Real.cos α + Real.sin α, slope (toSensorFrame R t p) * Real.sin α - Real.cos α, 0]
    simp only [vec_zero, vec_one, vec_two, zero_mul, add_zero] at hi'
    refine ⟨i, add_le_add le_rfl (Real.arctan_strictMono.monotone ?_)⟩
    show (_ / _ : ℝ) ≤ _
    rw [div_le_iff₀ (hd i)]
    linarith
  · obtain ⟨i, hi'⟩ := affine_le_corner R t lo hi p hp
      ![-(slope (toSensorFrame R t p) * Real.cos α + Real.sin α), -(slope (toSensorFrame R t p) * Real.sin α - Real.cos α), 0]
    simp only [vec_zero, vec_one, vec_two, zero_mul, add_zero] at hi'
    refine ⟨i, add_le_add le_rfl (Real.arctan_strictMono.monotone ?_)⟩
    show _ ≤ (_ / _ : ℝ)
    rw [le_div_iff₀ (hd i)]
    linarith

/-- For a cell that does not meet the vertical axis of a spherical lidar, the projected box contains the azimuth of every point of the cell, in spite of the
approximated arc tangent and of the jump at `±π`. `_partial`: the elevation interval is not conservative (`C59_spherical_elevation_fails`), nor is the azimuth
interval of a cell on the vertical axis (`C59_spherical_axis_fails`). -/
theorem C59_spherical_azimuth_partial (R : Fin 3 → Vec3) (t lo hi : Vec3)
    (haxis : ∀ q, InCell lo hi q → ¬ (toSensorFrame R t q 0 = 0 ∧ toSensorFrame R t q 1 = 0)) (corners : Fin 8 → ℝ × ℝ)
    (hcorners : ∀ i, sphericalToImage (sensorFrameCorner R t lo hi i) = some (corners i)) (p : Vec3) (hp : InCell lo hi p)
    (e a : ℝ) (hpa : sphericalToImage (toSensorFrame R t p) = some (e, a)) :
    InAngles (sphericalImageBox corners).2 a := by
  have azimuth : ∀ (q : Vec3) (c : ℝ × ℝ), sphericalToImage q = some c → approxAtan2 (q 1) (q 0) = some c.2 := by
    intro q c h
    unfold sphericalToImage at h
    cases h1 : approxAtan2 (q 2) (Real.sqrt (q 0 * q 0 + q 1 * q 1)) with
    | none => rw [h1] at h; cases h
    | some v =>
      cases h2 : approxAtan2 (q 1) (q 0) with
      | none => rw [h1, h2] at h; cases h
      | some w => rw [h1, h2] at h; cases h; rfl
  exact azimuth_interval R t lo hi haxis (fun i => (corners i).2) (fun i => azimuth _ _ (hcorners i)) p hp a (azimuth _ _ hpa)

/-- C70: the same for an Ouster lidar. -/
theorem C70_ouster_azimuth_partial (o : OusterOffsets) (R : Fin 3 → Vec3) (t lo hi : Vec3)
    (haxis : ∀ q, InCell lo hi q → ¬ (toSensorFrame R t q 0 = 0 ∧ toSensorFrame R t q 1 = 0)) (corners : Fin 8 → ℝ × ℝ)
    (hcorners : ∀ i, ousterToImage o (sensorFrameCorner R t lo hi i) = some (corners i)) (p : Vec3) (hp : InCell lo hi p)
    (e a : ℝ) (hpa : ousterToImage o (toSensorFrame R t p) = some (e, a)) :
    InAngles (sphericalImageBox corners).2 a := by
  have azimuth : ∀ (q : Vec3) (c : ℝ × ℝ), ousterToImage o q = some c → approxAtan2 (q 1) (q 0) = some c.2 := by
    intro q c h
    unfold ousterToImage at h
    cases h2 : approxAtan2 (q 1) (q 0) with
    | none => rw [h2] at h; cases h
    | some w =>
      cases h1 : approxAtan2 (q 2 - o.z) (planarNorm q - o.beam) with
      | none => rw [h1, h2] at h; cases h
      | some v => rw [h1, h2] at h; cases h; rfl
  exact azimuth_interval R t lo hi haxis (fun i => (corners i).2) (fun i => azimuth _ _ (hcorners i)) p hp a (azimuth _ _ hpa)

/-- The hypotheses are met by a cell behind the lidar, whose azimuths lie on both sides of `±π`; every corner and point of it has image coordinates. -/
example : ∃ corners : Fin 8 → ℝ × ℝ,
    (∀ i, sphericalToImage (sensorFrameCorner idRot ![0, 0, 0] ![-3, -1, 1] ![-1, 1, 3] i) = some (corners i)) ∧
    InAngles (sphericalImageBox corners).2 Real.pi := by
  have hsome : ∀ q : Vec3, q 0 < 0 → ∃ e, sphericalToImage q = some (e, slopeAngle (q 1 / q 0) + if 0 ≤ q 1 then Real.pi else -Real.pi) := by
    intro q hq
    unfold sphericalToImage
    rw [approxAtan2_back hq, approxAtan2_front _ _ (Real.sqrt_pos.2 (by nlinarith [mul_self_nonneg (q 1)]))]
    exact ⟨_, rfl⟩
  have hback : ∀ q, InCell ![-3, -1, 1] ![-1, 1, 3] q → toSensorFrame idRot ![0, 0, 0] q 0 < 0 := by
    intro q hq
    have := (hq 0).2
    simp [toSensorFrame, idRot, Fin.sum_univ_three] at this ⊢
    linarith
  have hc : ∀ i, ∃ c, sphericalToImage (sensorFrameCorner idRot ![0, 0, 0] ![-3, -1, 1] ![-1, 1, 3] i) = some c := by
    intro i
    have := hsome (sensorFrameCorner idRot ![0, 0, 0] ![-3, -1, 1] ![-1, 1, 3] i) (by
      rw [sensorFrameCorner_eq]
      refine hback _ fun k => ?_
      unfold worldCorner
      fin_cases k <;> split <;> norm_num)
    exact ⟨_, this.choose_spec⟩
  choose corners hcorners using hc
  refine ⟨corners, hcorners, ?_⟩
  obtain ⟨e, he⟩ := hsome ![-2, 0, 2] (by norm_num)
  refine C59_spherical_azimuth_partial idRot ![0, 0, 0] ![-3, -1, 1] ![-1, 1, 3] (fun q hq h => absurd h.1 (hback q hq).ne) corners hcorners
    ![-2, 0, 2] ?_ e Real.pi ?_
  · intro k
    fin_cases k <;> norm_num
  · rw [idRot_frame, he]
    simp only [vec_zero, vec_one, zero_div, le_refl, if_true]
    rw [slopeAngle_mid (s := 0) (by norm_num) (by norm_num), approxAtan_zero, zero_add]

end
end Wavemap
