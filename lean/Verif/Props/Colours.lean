import Verif.Props.SliceDisplayExamples
import Mathlib.Tactic.FieldSimp
import Mathlib.Tactic.Positivity
import Mathlib.Tactic.IntervalCases
/-!
# C75 The colors of the RViz displays

Grey values order the cells by their value, and the colors by height tell any two heights apart that do not differ by a multiple of 5 m.
-/
namespace Wavemap

/-- A possible value of a channel. -/
def Channel (x : ℚ) : Prop := 0 ≤ x ∧ x ≤ 1

/-! ## Grey values -/

/-- The grey value by probability is the probability that the cell is free. -/
theorem logOddsToColor_eq (v : ℝ) : logOddsToColor v = 1 / (1 + Real.exp v) := by
  unfold logOddsToColor
  have : 0 < 1 + Real.exp v := by positivity
  field_simp
  ring

/-- C75: grey values by probability are valid, and the more likely a cell is to be occupied the darker it is, with middle grey for unknown. -/
theorem C75_probability : (∀ v, 0 < logOddsToColor v ∧ logOddsToColor v < 1) ∧ (∀ v v', v < v' ↔ logOddsToColor v' < logOddsToColor v) ∧ logOddsToColor 0 = 1 / 2 ∧
    ∀ p : ℝ, 0 < p → p < 1 → logOddsToColor (Real.log (p / (1 - p))) = 1 - p := by
  have hpos : ∀ v : ℝ, 0 < 1 + Real.exp v := fun v => by positivity
  refine ⟨fun v => ⟨?_, ?_⟩, fun v v' => ?_, ?_, fun p h0 h1 => ?_⟩
  · rw [logOddsToColor_eq]; exact div_pos one_pos (hpos v)
  · rw [logOddsToColor_eq, div_lt_one (hpos v)]; linarith [Real.exp_pos v]
  · rw [logOddsToColor_eq, logOddsToColor_eq, one_div_lt_one_div (hpos v') (hpos v), add_lt_add_iff_left, Real.exp_lt_exp]
  · rw [logOddsToColor_eq, Real.exp_zero]; norm_num
  · have : 0 < 1 - p := by linarith
    rw [logOddsToColor_eq, Real.exp_log (div_pos h0 this)]
    field_simp
    ring

/-- C75: grey values of raw values are valid for all values that a slice shows, and larger values are lighter, from black at the lower threshold to white at the
upper one. -/
theorem C75_raw (lo hi : ℚ) (h : lo < hi) : (∀ v, lo ≤ v → v ≤ hi → ∃ c, scalarToColor v lo hi = some c ∧ Channel c) ∧
    (∀ v v' c c', scalarToColor v lo hi = some c → scalarToColor v' lo hi = some c' → (v < v' ↔ c < c')) ∧
    scalarToColor lo lo hi = some 0 ∧ scalarToColor hi lo hi = some 1 := by
  have hd : 0 < hi - lo := by linarith
  have heq : ∀ v, scalarToColor v lo hi = some ((v - lo) / (hi - lo)) := fun v => by unfold scalarToColor; rw [if_neg hd.ne']
  refine ⟨fun v h1 h2 => ⟨_, heq v, ?_, ?_⟩, fun v v' c c' h1 h2 => ?_, ?_, ?_⟩
  · exact div_nonneg (by linarith) hd.le
  · rw [div_le_one hd]; linarith
  · rw [heq] at h1 h2
    cases h1; cases h2
    rw [div_lt_div_iff_of_pos_right hd]
    constructor <;> intro h <;> linarith
  · rw [heq, sub_self, zero_div]
  · rw [heq, div_self hd.ne']

/-- C75: all squares of a slice have valid colors, unless the thresholds are the same. -/
theorem C75_slice_partial (w : ℚ) (H : Nat) (es : List SliceDisplay.Event) (he : ∀ e ∈ es, SliceDisplay.Served w H e) (s : SliceDisplay)
    (hr : SliceDisplay.run es {} = .done s) (hv : s.visible = true) (hm : s.map.isSome = true) (hne : s.minLogOdds ≠ s.maxLogOdds) (q : Square) (hq : q ∈ s.squares)
    (x y : ℚ) (hc : q.Covers x y) :
    (∃ v, q.colour = .ofLogOdds v) ∨ ∃ v lo hi c, q.colour = .ofScalar v lo hi ∧ scalarToColor v lo hi = some c ∧ Channel c := by
  obtain ⟨s', h1, h2, h0⟩ := SliceDisplay.Fresh.served_run es {} (.initial w H) (.initial w H) he
  rw [hr] at h1
  cases h1
  obtain ⟨m, hm⟩ := Option.isSome_iff_exists.1 hm
  have hs := h2.shows_ m hm hv
  have hw := (h0 m hm).1.width
  have hmem : q ∈ s.squares.filter fun q => decide (q.Covers x y) := List.mem_filter.2 ⟨hq, by simpa using hc⟩
  have hfl : ∀ z : ℚ, (⌊z / m.minCellWidth⌋ : ℚ) * m.minCellWidth ≤ z ∧ z < (⌊z / m.minCellWidth⌋ + 1) * m.minCellWidth := fun z =>
    ⟨(le_div_iff₀ hw).1 (Int.floor_le _), (div_lt_iff₀ hw).1 (Int.lt_floor_add_one _)⟩
  obtain ⟨j, hj⟩ : ∃ j, CellHolds m.minCellWidth j x y s.height :=
    ⟨![⌊x / m.minCellWidth⌋, ⌊y / m.minCellWidth⌋, ⌊s.height / m.minCellWidth⌋], hfl x, hfl y, hfl s.height⟩
  by_cases hcell : m.Stored j ∧ s.minLogOdds ≤ m.cell j ∧ m.cell j ≤ s.maxLogOdds
  · obtain ⟨q', h3, h4⟩ := hs.square x y j hj hcell.1 hcell.2.1 hcell.2.2
    rw [h3, List.mem_singleton] at hmem
    subst hmem
    cases hcol : s.colour with
    | probability => rw [hcol] at h4; exact .inl ⟨_, h4⟩
    | raw =>
      rw [hcol] at h4
      obtain ⟨c, hc1, hc2⟩ := (C75_raw s.minLogOdds s.maxLogOdds (lt_of_le_of_ne (hcell.2.1.trans hcell.2.2) hne)).1 (m.cell j) hcell.2.1 hcell.2.2
      exact .inr ⟨_, _, _, c, h4, hc1, hc2⟩
  · rw [hs.nothing x y j hj hcell] at hmem
    cases hmem

/-- C75 fails for raw values if both thresholds are the same: the squares of the cells with this value have no color (the code divides zero by zero). -/
theorem C75_equal_thresholds_fails : ∃ es s q, SliceDisplay.run es {} = .done s ∧ q ∈ s.squares ∧ ∃ v lo hi, q.colour = .ofScalar v lo hi ∧
    scalarToColor v lo hi = none := by
  have h : (SliceDisplay.run [.setVisible true, .setColour .raw, .setMinLogOdds 1, .setMaxLogOdds 1, .message (flatMsg 1 1 [fun _ => 0] [(fun _ => 0, 1)]) 1 true] {}).holds
      (fun s => decide (∃ q ∈ s.squares, q.colour = .ofScalar 1 1 1)) = true := by decide +kernel
  obtain ⟨s, h1, h2⟩ := Outcome.holds_iff h
  simp only [decide_eq_true_eq] at h2
  obtain ⟨q, h2, h3⟩ := h2
  exact ⟨_, s, q, h1, h2, 1, 1, 1, h3, by decide +kernel⟩

/-- C75 fails for raw values with the default thresholds: all values from -10 to 10 have grey values that differ by less than a tenth of one step of 8-bit color, so that
free, unknown and occupied cells look the same. -/
theorem C75_default_thresholds_fails (v v' c c' : ℚ) (hv : |v| ≤ 10) (hv' : |v'| ≤ 10) (h : scalarToColor v ({} : SliceDisplay).minLogOdds ({} : SliceDisplay).maxLogOdds = some c)
    (h' : scalarToColor v' ({} : SliceDisplay).minLogOdds ({} : SliceDisplay).maxLogOdds = some c') : |c - c'| < 1 / 2550 := by
  have h : scalarToColor v (-1000000) 1000000 = some c := h
  have h' : scalarToColor v' (-1000000) 1000000 = some c' := h'
  unfold scalarToColor at h h'
  rw [if_neg (by norm_num)] at h h'
  cases h; cases h'
  rw [abs_le] at hv hv'
  rw [abs_lt]
  constructor <;> linarith

/-! ## Colors by height -/

/-- The colors of the rainbow, from red at 0 to red at 6. -/
def rainbow (h : ℚ) : Rgb :=
  if h < 1 then ⟨1, h, 0⟩ else if h < 2 then ⟨2 - h, 1, 0⟩ else if h < 3 then ⟨0, 1, h - 2⟩ else if h < 4 then ⟨0, 4 - h, 1⟩
  else if h < 5 then ⟨h - 4, 0, 1⟩ else ⟨1, 0, 6 - h⟩

theorem positionToColor_eq (z : ℚ) : positionToColor z = rainbow (Int.fract (z / 5) * 6) := by
  have hf : 1 / 5 * z + -2 - ⌊1 / 5 * z + -2⌋ = Int.fract (z / 5) := by
    have : (1 / 5 * z + -2 : ℚ) = z / 5 - (2 : Int) := by push_cast; ring
    rw [this, Int.self_sub_floor, Int.fract_sub_intCast]
  unfold positionToColor
  simp only [hf]
  have h0 := Int.fract_nonneg (z / 5)
  have h1 := Int.fract_lt_one (z / 5)
  generalize Int.fract (z / 5) = x at h0 h1
  obtain ⟨h, hh⟩ : ∃ h, h = x * 6 := ⟨_, rfl⟩
  have g0 : 0 ≤ h := by rw [hh]; linarith
  have g1 : h < 6 := by rw [hh]; linarith
  rw [← hh]
  unfold rainbow
  have hb0 : 0 ≤ ⌊h⌋ := Int.floor_nonneg.2 g0
  have hb1 : ⌊h⌋ < 6 := Int.floor_lt.2 (by exact_mod_cast g1)
  have l1 := Int.floor_le h
  have l2 := Int.lt_floor_add_one h
  generalize ⌊h⌋ = b at *
  interval_cases b <;> norm_num at l1 l2 ⊢
  · intro h; exact absurd h (by linarith)
  · rw [if_neg (by linarith), if_pos (by linarith)]; norm_num; ring
  · rw [if_neg (by linarith), if_neg (by linarith), if_pos (by linarith)]
  · rw [if_neg (by linarith), if_neg (by linarith), if_neg (by linarith), if_pos (by linarith)]; norm_num; ring
  · rw [if_neg (by linarith), if_neg (by linarith), if_neg (by linarith), if_neg (by linarith), if_pos (by linarith)]
  · rw [if_neg (by linarith), if_neg (by linarith), if_neg (by linarith), if_neg (by linarith), if_neg (by linarith)]; norm_num; ring

/-- The place of a color in the rainbow. -/
def rainbowPlace (c : Rgb) : ℚ :=
  if c.r = 1 ∧ c.b = 0 then c.g else if c.g = 1 ∧ c.b = 0 then 2 - c.r else if c.r = 0 ∧ c.g = 1 then 2 + c.b else if c.r = 0 ∧ c.b = 1 then 4 - c.g
  else if c.g = 0 ∧ c.b = 1 then 4 + c.r else 6 - c.b

theorem rainbowPlace_rainbow {h : ℚ} (h0 : 0 ≤ h) (h6 : h < 6) : rainbowPlace (rainbow h) = h := by
  unfold rainbow
  split_ifs with a1 a2 a3 a4 a5 <;> unfold rainbowPlace <;> dsimp only <;> split_ifs with b1 b2 b3 b4 b5 <;> grind

/-- C75: the color of a height is valid, and fully saturated and bright: one channel is 1 and another one is 0. In particular it is never the fallback color. -/
theorem C75_height_valid (z : ℚ) : Channel (positionToColor z).r ∧ Channel (positionToColor z).g ∧ Channel (positionToColor z).b ∧
    (1 ∈ [(positionToColor z).r, (positionToColor z).g, (positionToColor z).b]) ∧ 0 ∈ [(positionToColor z).r, (positionToColor z).g, (positionToColor z).b] ∧
    positionToColor z ≠ ⟨1, 1 / 2, 1 / 2⟩ := by
  rw [positionToColor_eq]
  have h0 : 0 ≤ Int.fract (z / 5) * 6 := by linarith [Int.fract_nonneg (z / 5)]
  have h1 : Int.fract (z / 5) * 6 < 6 := by linarith [Int.fract_lt_one (z / 5)]
  generalize Int.fract (z / 5) * 6 = h at h0 h1
  unfold rainbow Channel
  split_ifs <;> simp <;> grind

/-- C75: two heights have the same color exactly if they differ by a multiple of 5 m. -/
theorem C75_height_distinct (z z' : ℚ) : positionToColor z = positionToColor z' ↔ ∃ k : Int, z - z' = 5 * k := by
  rw [positionToColor_eq, positionToColor_eq]
  have hplace : ∀ x : ℚ, rainbowPlace (rainbow (Int.fract x * 6)) = Int.fract x * 6 := fun x =>
    rainbowPlace_rainbow (by linarith [Int.fract_nonneg x]) (by linarith [Int.fract_lt_one x])
  constructor
  · intro h
    have h := congrArg rainbowPlace h
    rw [hplace, hplace] at h
    have h : Int.fract (z / 5) = Int.fract (z' / 5) := by linarith
    obtain ⟨k, hk⟩ := Int.fract_eq_fract.1 h
    exact ⟨k, by linarith⟩
  · rintro ⟨k, hk⟩
    have : Int.fract (z / 5) = Int.fract (z' / 5) := Int.fract_eq_fract.2 ⟨k, by linarith⟩
    rw [this]

example : positionToColor 0 = ⟨1, 0, 0⟩ ∧ positionToColor (5 / 3) = ⟨0, 1, 0⟩ ∧ positionToColor (-5 / 3) = ⟨0, 0, 1⟩ ∧ positionToColor 6 = positionToColor 1 ∧
    positionToColor 2 ≠ positionToColor 1 := by decide +kernel

example : scalarToColor 0 (-2) 4 = some (1 / 3) := by decide +kernel

end Wavemap
