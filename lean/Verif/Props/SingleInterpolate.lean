import Verif.Model.SingleInterpolate
import Verif.Props.SinglePrecision
import Verif.Props.Interpolate
/-!
# C89: interpolated queries in single precision
-/
namespace Wavemap
namespace SingleInterpolate
open Interpolate

/-- How far the weights can be off, for points at most `N` cells from the origin along each axis. -/
def delta (N : ℚ) : ℚ := (N + 2) / 2 ^ 22

/-! ## Proofs -/

/-- Linear interpolation along one axis, without rounding. -/
def exactBlend (a x y : ℚ) : ℚ := (1 - a) * x + a * y

theorem exactBlend_le {a x y M : ℚ} (h0 : 0 ≤ a) (h1 : a ≤ 1) (hx : |x| ≤ M) (hy : |y| ≤ M) : |exactBlend a x y| ≤ M := by
  unfold exactBlend
  rw [abs_le] at *
  constructor <;> nlinarith

/-- What is known about the weight and the corner along one axis, where `s` is the exact position in cells. -/
structure Ax (δ s : ℚ) (m : Int) (a : ℚ) : Prop where
  floor : ∃ s', |s' - s| ≤ δ ∧ m = ⌊s'⌋
  weight : |a - (s - m)| ≤ δ

theorem Ax.cases {δ s a : ℚ} {m : Int} (h : Ax δ s m a) (hδ : δ ≤ 1 / 2) :
    (m = ⌊s⌋ ∧ |a - (s - ⌊s⌋)| ≤ δ) ∨ (m = ⌊s⌋ + 1 ∧ 1 - δ ≤ s - ⌊s⌋ ∧ |a| ≤ 2 * δ) ∨ (m = ⌊s⌋ - 1 ∧ s - ⌊s⌋ ≤ δ ∧ |1 - a| ≤ 2 * δ) := by
  obtain ⟨⟨s', h1, rfl⟩, h2⟩ := h
  have f1 := Int.floor_le s
  have f2 := Int.lt_floor_add_one s
  have g1 := Int.floor_le s'
  have g2 := Int.lt_floor_add_one s'
  rw [abs_le] at h1 h2
  have c1 : ⌊s'⌋ < ⌊s⌋ + 2 := by
    have : (⌊s'⌋ : ℚ) < ((⌊s⌋ + 2 : Int) : ℚ) := by push_cast; linarith
    exact_mod_cast this
  have c2 : ⌊s⌋ < ⌊s'⌋ + 2 := by
    have : (⌊s⌋ : ℚ) < ((⌊s'⌋ + 2 : Int) : ℚ) := by push_cast; linarith
    exact_mod_cast this
  rcases (by omega : ⌊s'⌋ = ⌊s⌋ ∨ ⌊s'⌋ = ⌊s⌋ + 1 ∨ ⌊s'⌋ = ⌊s⌋ - 1) with e | e | e <;> rw [e] at g1 g2 h2 ⊢ <;> push_cast at g1 g2 h2
  · exact Or.inl ⟨rfl, abs_le.2 h2⟩
  · exact Or.inr (Or.inl ⟨rfl, by linarith, abs_le.2 ⟨by linarith, by linarith⟩⟩)
  · exact Or.inr (Or.inr ⟨rfl, by linarith, abs_le.2 ⟨by linarith, by linarith⟩⟩)

theorem abs_mul_le {a b A B : ℚ} (ha : |a| ≤ A) (hb : |b| ≤ B) : |a * b| ≤ A * B := by
  rw [abs_mul]
  exact mul_le_mul ha hb (abs_nonneg _) (le_trans (abs_nonneg _) ha)

theorem abs_sub_le_two {x y M : ℚ} (hx : |x| ≤ M) (hy : |y| ≤ M) : |x - y| ≤ 2 * M := by
  rw [abs_le] at *; constructor <;> linarith

/-- The corner and the weight used, instead of the exact ones. -/
theorem Ax.blend {δ s a M : ℚ} {m : Int} (h : Ax δ s m a) (hδ0 : 0 ≤ δ) (hδ : δ ≤ 1 / 2) (g : Int → ℚ) (hg : ∀ j, |g j| ≤ M) :
    |exactBlend a (g m) (g (m + 1)) - exactBlend (s - ⌊s⌋) (g ⌊s⌋) (g (⌊s⌋ + 1))| ≤ 6 * δ * M := by
  have hM : 0 ≤ M := le_trans (abs_nonneg _) (hg 0)
  have hδM : 0 ≤ δ * M := mul_nonneg hδ0 hM
  have f1 := Int.floor_le s
  have f2 := Int.lt_floor_add_one s
  rcases h.cases hδ with ⟨rfl, h2⟩ | ⟨rfl, h1, h2⟩ | ⟨rfl, h1, h2⟩
  · rw [show exactBlend a (g ⌊s⌋) (g (⌊s⌋ + 1)) - exactBlend (s - ⌊s⌋) (g ⌊s⌋) (g (⌊s⌋ + 1)) = (a - (s - ⌊s⌋)) * (g (⌊s⌋ + 1) - g ⌊s⌋) by unfold exactBlend; ring]
    refine (abs_mul_le h2 (abs_sub_le_two (hg _) (hg _))).trans ?_
    linarith
  · rw [show exactBlend a (g (⌊s⌋ + 1)) (g (⌊s⌋ + 1 + 1)) - exactBlend (s - ⌊s⌋) (g ⌊s⌋) (g (⌊s⌋ + 1)) =
      a * (g (⌊s⌋ + 1 + 1) - g (⌊s⌋ + 1)) + (1 - (s - ⌊s⌋)) * (g (⌊s⌋ + 1) - g ⌊s⌋) by unfold exactBlend; ring]
    have e1 := abs_mul_le h2 (abs_sub_le_two (hg (⌊s⌋ + 1 + 1)) (hg (⌊s⌋ + 1)))
    have e2 := abs_mul_le (show |1 - (s - ⌊s⌋)| ≤ δ by rw [abs_le]; constructor <;> linarith) (abs_sub_le_two (hg (⌊s⌋ + 1)) (hg ⌊s⌋))
    exact (abs_add_le _ _).trans (by linarith)
  · rw [show exactBlend a (g (⌊s⌋ - 1)) (g (⌊s⌋ - 1 + 1)) - exactBlend (s - ⌊s⌋) (g ⌊s⌋) (g (⌊s⌋ + 1)) =
      (1 - a) * (g (⌊s⌋ - 1) - g ⌊s⌋) + (s - ⌊s⌋) * (g ⌊s⌋ - g (⌊s⌋ + 1)) by rw [sub_add_cancel]; unfold exactBlend; ring]
    have e1 := abs_mul_le h2 (abs_sub_le_two (hg (⌊s⌋ - 1)) (hg ⌊s⌋))
    have e2 := abs_mul_le (show |s - ⌊s⌋| ≤ δ by rw [abs_le]; constructor <;> linarith) (abs_sub_le_two (hg ⌊s⌋) (hg (⌊s⌋ + 1)))
    exact (abs_add_le _ _).trans (by linarith)

theorem Ax.range {δ s a : ℚ} {m : Int} (h : Ax δ s m a) (hδ0 : 0 ≤ δ) (hδ : δ ≤ 1 / 2) : -(2 * δ) ≤ a ∧ a ≤ 1 + 2 * δ := by
  have f1 := Int.floor_le s
  have f2 := Int.lt_floor_add_one s
  rcases h.cases hδ with ⟨rfl, h2⟩ | ⟨rfl, h1, h2⟩ | ⟨rfl, h1, h2⟩ <;> rw [abs_le] at h2 <;> constructor <;> linarith

/-- The two weights together are little more than one. -/
theorem weights_sum {δ a : ℚ} (h0 : -(2 * δ) ≤ a) (h1 : a ≤ 1 + 2 * δ) (hδ0 : 0 ≤ δ) : |1 - a| + |a| ≤ 1 + 4 * δ := by
  rcases abs_cases a with ⟨e, _⟩ | ⟨e, _⟩ <;> rcases abs_cases (1 - a) with ⟨e', _⟩ | ⟨e', _⟩ <;> rw [e, e'] <;> linarith

theorem exactBlend_diff {δ a x y x' y' d : ℚ} (h0 : -(2 * δ) ≤ a) (h1 : a ≤ 1 + 2 * δ) (hδ0 : 0 ≤ δ) (hx : |x - x'| ≤ d) (hy : |y - y'| ≤ d) :
    |exactBlend a x y - exactBlend a x' y'| ≤ (1 + 4 * δ) * d := by
  rw [show exactBlend a x y - exactBlend a x' y' = (1 - a) * (x - x') + a * (y - y') by unfold exactBlend; ring]
  have e1 := abs_mul_le (le_refl |1 - a|) hx
  have e2 := abs_mul_le (le_refl |a|) hy
  have e3 := mul_le_mul_of_nonneg_right (weights_sum h0 h1 hδ0) (le_trans (abs_nonneg _) hx)
  exact (abs_add_le _ _).trans (by linarith)

/-- The rounding of one sum of two products. -/
theorem blend_err {δ a x y K : ℚ} (h0 : -(2 * δ) ≤ a) (h1 : a ≤ 1 + 2 * δ) (hδ0 : 0 ≤ δ) (hδ : δ ≤ 1 / 64) (hx : |x| ≤ K) (hy : |y| ≤ K) :
    |Single.blend (fl (1 - a)) a x y - exactBlend a x y| ≤ 4 / 2 ^ 24 * K := by
  have hK : 0 ≤ K := le_trans (abs_nonneg _) hx
  obtain ⟨δ1, g1, e1⟩ := fl_factor (1 - a)
  obtain ⟨δ2, g2, e2⟩ := fl_factor (fl (1 - a) * x)
  obtain ⟨δ3, g3, e3⟩ := fl_factor (a * y)
  obtain ⟨δ4, g4, e4⟩ := fl_factor (fl (fl (1 - a) * x) + fl (a * y))
  unfold Single.blend
  rw [e4, e3, e2, e1]
  unfold exactBlend
  rw [show ((1 - a) * (1 + δ1) * x * (1 + δ2) + a * y * (1 + δ3)) * (1 + δ4) - ((1 - a) * x + a * y)
    = (1 - a) * (x * ((1 + δ1) * (1 + δ2) * (1 + δ4) - 1)) + a * (y * ((1 + δ3) * (1 + δ4) - 1)) by ring]
  rw [abs_le] at g1 g2 g3 g4
  have k1 : |(1 + δ1) * (1 + δ2) * (1 + δ4) - 1| ≤ 31 / 10 / 2 ^ 24 := by
    have q : |δ1 * δ2 * δ4 + δ1 * δ2 + δ1 * δ4 + δ2 * δ4| ≤ 4 * (1 / 2 ^ 24 * (1 / 2 ^ 24)) := by
      have a12 := abs_mul_le (abs_le.2 g1) (abs_le.2 g2)
      have a14 := abs_mul_le (abs_le.2 g1) (abs_le.2 g4)
      have a24 := abs_mul_le (abs_le.2 g2) (abs_le.2 g4)
      have a124 := abs_mul_le a12 (abs_le.2 (show -(1:ℚ) ≤ δ4 ∧ δ4 ≤ 1 from ⟨by linarith [g4.1], by linarith [g4.2]⟩))
      rw [abs_le] at *
      constructor <;> linarith [a12.1, a12.2, a14.1, a14.2, a24.1, a24.2, a124.1, a124.2]
    rw [show (1 + δ1) * (1 + δ2) * (1 + δ4) - 1 = δ1 + δ2 + δ4 + (δ1 * δ2 * δ4 + δ1 * δ2 + δ1 * δ4 + δ2 * δ4) by ring]
    generalize δ1 * δ2 * δ4 + δ1 * δ2 + δ1 * δ4 + δ2 * δ4 = t at q
    rw [abs_le] at *
    norm_num at *
    constructor <;> linarith [q.1, q.2]
  have k2 : |(1 + δ3) * (1 + δ4) - 1| ≤ 31 / 10 / 2 ^ 24 := by
    have q := abs_mul_le (abs_le.2 g3) (abs_le.2 g4)
    rw [show (1 + δ3) * (1 + δ4) - 1 = δ3 + δ4 + δ3 * δ4 by ring]
    generalize δ3 * δ4 = t at q
    rw [abs_le] at *
    norm_num at *
    constructor <;> linarith [q.1, q.2]
  have m1 := abs_mul_le (le_refl |1 - a|) (abs_mul_le hx k1)
  have m2 := abs_mul_le (le_refl |a|) (abs_mul_le hy k2)
  have m3 := mul_le_mul_of_nonneg_right (weights_sum h0 h1 hδ0) (show (0 : ℚ) ≤ K * (31 / 10 / 2 ^ 24) by positivity)
  have m4 := mul_le_mul_of_nonneg_right hδ (show (0 : ℚ) ≤ K * (31 / 10 / 2 ^ 24) by positivity)
  refine (abs_add_le _ _).trans ?_
  generalize (1 - a) * (x * ((1 + δ1) * (1 + δ2) * (1 + δ4) - 1)) = t1 at m1 ⊢
  generalize a * (y * ((1 + δ3) * (1 + δ4) - 1)) = t2 at m2 ⊢
  norm_num at *
  linarith

/-- Along one axis: from values that are off by `d`. -/
theorem Ax.step {δ s a M d : ℚ} {m : Int} (h : Ax δ s m a) (hδ0 : 8 / 2 ^ 24 ≤ δ) (hδ : δ ≤ 1 / 64) (g g' : Int → ℚ) (hg : ∀ j, |g j| ≤ M)
    (hd : ∀ j, |g' j - g j| ≤ d) :
    |Single.blend (fl (1 - a)) a (g' m) (g' (m + 1)) - exactBlend (s - ⌊s⌋) (g ⌊s⌋) (g (⌊s⌋ + 1))| ≤ 13 / 2 * δ * M + (1 + 9 / 2 * δ) * d := by
  have hδ' : 0 ≤ δ := le_trans (by norm_num) hδ0
  have hM : 0 ≤ M := le_trans (abs_nonneg _) (hg 0)
  have hd0 : 0 ≤ d := le_trans (abs_nonneg _) (hd 0)
  obtain ⟨r0, r1⟩ := h.range hδ' (by linarith)
  have hb : ∀ j, |g' j| ≤ M + d := fun j => by
    have := abs_add_le (g' j - g j) (g j)
    rw [sub_add_cancel] at this
    linarith [hg j, hd j]
  have e1 := blend_err r0 r1 hδ' hδ (hb m) (hb (m + 1))
  have e2 := exactBlend_diff r0 r1 hδ' (hd m) (hd (m + 1))
  have e3 := h.blend hδ' (by linarith) g hg
  have t1 := abs_sub_le (Single.blend (fl (1 - a)) a (g' m) (g' (m + 1))) (exactBlend a (g' m) (g' (m + 1))) (exactBlend (s - ⌊s⌋) (g ⌊s⌋) (g (⌊s⌋ + 1)))
  have t2 := abs_sub_le (exactBlend a (g' m) (g' (m + 1))) (exactBlend a (g m) (g (m + 1))) (exactBlend (s - ⌊s⌋) (g ⌊s⌋) (g (⌊s⌋ + 1)))
  have e4 : 4 / 2 ^ 24 * (M + d) ≤ δ / 2 * (M + d) := mul_le_mul_of_nonneg_right (by linarith) (by linarith)
  linarith

/-- The weight along one axis. -/
theorem ax_of (x w N p : ℚ) (hw : 0 < w) (hp : p = x * w) (hN : |x| ≤ N) (hN' : N ≤ 2 ^ 16 - 2) :
    Ax (delta N) (x - 1 / 2) ⌊fl (fl (p * fl (1 / w)) - 1 / 2)⌋
      (fl (fl (p - fl (fl (fl (⌊fl (fl (p * fl (1 / w)) - 1 / 2)⌋ : ℚ) + 1 / 2) * w)) * fl (1 / w))) := by
  have h1 := scaled_err p w hw
  have ex : p / w = x := by rw [hp]; field_simp
  rw [ex] at h1
  have hce : cellError x ≤ delta N := by
    unfold cellError delta
    exact div_le_div_of_nonneg_right (by linarith) (by positivity)
  refine ⟨⟨_, (le_of_lt h1).trans hce, rfl⟩, ?_⟩
  generalize fl (fl (p * fl (1 / w)) - 1 / 2) = s' at *
  have g1 := Int.floor_le s'
  have g2 := Int.lt_floor_add_one s'
  generalize ⌊s'⌋ = m at *
  have hδ : delta N ≤ 1 / 64 := by
    unfold delta; rw [div_le_iff₀ (by positivity)]; norm_num at *; linarith
  have h1' := abs_lt.1 (lt_of_lt_of_le h1 hce)
  have hx := abs_le.1 hN
  have hm : |m| < 2 ^ 23 := by
    have : |(m : ℚ)| < 2 ^ 23 := by rw [abs_lt]; norm_num at *; constructor <;> linarith
    exact_mod_cast this
  rw [fl_int (lt_trans hm (by norm_num)), fl_of_isFloat (isFloat_half hm)]
  obtain ⟨δ1, k1, e1⟩ := fl_factor (1 / w)
  obtain ⟨δ4, k4, e4⟩ := fl_factor (((m : ℚ) + 1 / 2) * w)
  obtain ⟨δ5, k5, e5⟩ := fl_factor (p - fl (((m : ℚ) + 1 / 2) * w))
  obtain ⟨δ6, k6, e6⟩ := fl_factor (fl (p - fl (((m : ℚ) + 1 / 2) * w)) * fl (1 / w))
  rw [e6, e5, e4, e1, hp]
  rw [show (x * w - ((m : ℚ) + 1 / 2) * w * (1 + δ4)) * (1 + δ5) * (1 / w * (1 + δ1)) * (1 + δ6) - (x - 1 / 2 - m)
    = (x - 1 / 2 - m) * ((1 + δ5) * (1 + δ1) * (1 + δ6) - 1) - ((m : ℚ) + 1 / 2) * (δ4 * ((1 + δ5) * (1 + δ1) * (1 + δ6))) by
      field_simp; ring]
  have three : ∀ a b c : ℚ, |a| ≤ 1 / 2 ^ 24 → |b| ≤ 1 / 2 ^ 24 → |c| ≤ 1 / 2 ^ 24 → |(1 + a) * (1 + b) * (1 + c) - 1| ≤ 31 / 10 / 2 ^ 24 := by
    intro a b c ha hb hc
    have q1 := abs_mul_le ha hb
    have q2 := abs_mul_le ha hc
    have q3 := abs_mul_le hb hc
    have q4 := abs_mul_le q1 (hc.trans (by norm_num : (1 / 2 ^ 24 : ℚ) ≤ 1))
    rw [show (1 + a) * (1 + b) * (1 + c) - 1 = a + b + c + a * b + a * c + b * c + a * b * c by ring]
    generalize a * b * c = t4 at *
    generalize a * b = t1 at *
    generalize a * c = t2 at *
    generalize b * c = t3 at *
    rw [abs_le] at *
    norm_num at *
    constructor <;> linarith [q1.1, q1.2, q2.1, q2.2, q3.1, q3.2, q4.1, q4.2]
  have t := three δ5 δ1 δ6 k5 k1 k6
  generalize (1 + δ5) * (1 + δ1) * (1 + δ6) = z at t ⊢
  have hz : |z| ≤ 11 / 10 := by
    rw [abs_le] at t ⊢
    norm_num at t
    constructor <;> linarith [t.1, t.2]
  have b1 := abs_mul_le (show |x - 1 / 2 - m| ≤ 65 / 64 by rw [abs_le]; constructor <;> linarith) t
  have b2 := abs_mul_le (show |(m : ℚ) + 1 / 2| ≤ N + 65 / 64 by rw [abs_le]; constructor <;> linarith) (abs_mul_le k4 hz)
  refine (abs_sub _ _).trans ?_
  unfold delta
  generalize (x - 1 / 2 - ↑m) * (z - 1) = u1 at *
  generalize ((m : ℚ) + 1 / 2) * (δ4 * z) = u2 at *
  have hN0 : 0 ≤ N := le_trans (abs_nonneg _) hN
  norm_num at *
  linarith

/-- The corner with the given offset. -/
def singleCorner (w : ℚ) (p : Point 3) (x y z : Int) : Index 3 :=
  ![Single.pointToFloorIndex p (fl (1 / w)) 0 + x, Single.pointToFloorIndex p (fl (1 / w)) 1 + y, Single.pointToFloorIndex p (fl (1 / w)) 2 + z]

theorem singleCorner_eq (w : ℚ) (p : Point 3) (k : Nat) :
    (fun i => Single.pointToFloorIndex p (fl (1 / w)) i + offset k i) = singleCorner w p (offset k 0) (offset k 1) (offset k 2) := by
  funext i; fin_cases i <;> rfl

theorem single_trilinear_eq (w : ℚ) (f : Index 3 → ℚ) (p : Point 3) :
    let b0 := Single.blend (fl (1 - Single.weight w p 0)) (Single.weight w p 0)
    let b1 := Single.blend (fl (1 - Single.weight w p 1)) (Single.weight w p 1)
    let b2 := Single.blend (fl (1 - Single.weight w p 2)) (Single.weight w p 2)
    let v := fun x y z => f (singleCorner w p x y z)
    Single.trilinear w f p = b2 (b1 (b0 (v 0 0 0) (v 1 0 0)) (b0 (v 0 1 0) (v 1 1 0))) (b1 (b0 (v 0 0 1) (v 1 0 1)) (b0 (v 0 1 1) (v 1 1 1))) := by
  unfold Single.trilinear Single.weightComp
  dsimp only
  rw [singleCorner_eq w p 0, singleCorner_eq w p (0 + 4), singleCorner_eq w p (0 + 2), singleCorner_eq w p (0 + 2 + 4),
    singleCorner_eq w p 1, singleCorner_eq w p (1 + 4), singleCorner_eq w p (1 + 2), singleCorner_eq w p (1 + 2 + 4)]
  rfl

/-- The three axes together. -/
theorem three_axes {δ M : ℚ} (hδ0 : 8 / 2 ^ 24 ≤ δ) (hδ : δ ≤ 1 / 64) {s0 s1 s2 a0 a1 a2 : ℚ} {m0 m1 m2 : Int} (h0 : Ax δ s0 m0 a0) (h1 : Ax δ s1 m1 a1) (h2 : Ax δ s2 m2 a2)
    (F : Int → Int → Int → ℚ) (hF : ∀ x y z, |F x y z| ≤ M) :
    let b0 := Single.blend (fl (1 - a0)) a0
    let b1 := Single.blend (fl (1 - a1)) a1
    let b2 := Single.blend (fl (1 - a2)) a2
    let e0 := exactBlend (s0 - ⌊s0⌋)
    let e1 := exactBlend (s1 - ⌊s1⌋)
    let e2 := exactBlend (s2 - ⌊s2⌋)
    |b2 (b1 (b0 (F m0 m1 m2) (F (m0 + 1) m1 m2)) (b0 (F m0 (m1 + 1) m2) (F (m0 + 1) (m1 + 1) m2)))
        (b1 (b0 (F m0 m1 (m2 + 1)) (F (m0 + 1) m1 (m2 + 1))) (b0 (F m0 (m1 + 1) (m2 + 1)) (F (m0 + 1) (m1 + 1) (m2 + 1))))
      - e2 (e1 (e0 (F ⌊s0⌋ ⌊s1⌋ ⌊s2⌋) (F (⌊s0⌋ + 1) ⌊s1⌋ ⌊s2⌋)) (e0 (F ⌊s0⌋ (⌊s1⌋ + 1) ⌊s2⌋) (F (⌊s0⌋ + 1) (⌊s1⌋ + 1) ⌊s2⌋)))
        (e1 (e0 (F ⌊s0⌋ ⌊s1⌋ (⌊s2⌋ + 1)) (F (⌊s0⌋ + 1) ⌊s1⌋ (⌊s2⌋ + 1))) (e0 (F ⌊s0⌋ (⌊s1⌋ + 1) (⌊s2⌋ + 1)) (F (⌊s0⌋ + 1) (⌊s1⌋ + 1) (⌊s2⌋ + 1))))|
      ≤ 21 * δ * M := by
  intro b0 b1 b2 e0 e1 e2
  have hM : 0 ≤ M := le_trans (abs_nonneg _) (hF 0 0 0)
  have hδM : 0 ≤ δ * M := mul_nonneg (le_trans (by norm_num) hδ0) hM
  have hδδM : δ * (δ * M) ≤ 1 / 64 * (δ * M) := mul_le_mul_of_nonneg_right hδ hδM
  have fr : ∀ s : ℚ, 0 ≤ s - ⌊s⌋ ∧ s - ⌊s⌋ ≤ 1 := fun s => ⟨by linarith [Int.floor_le s], by linarith [Int.lt_floor_add_one s]⟩
  have c0 : ∀ y z, |b0 (F m0 y z) (F (m0 + 1) y z) - e0 (F ⌊s0⌋ y z) (F (⌊s0⌋ + 1) y z)| ≤ 13 / 2 * δ * M := fun y z => by
    have := h0.step hδ0 hδ (fun x => F x y z) (fun x => F x y z) (fun x => hF x y z) (d := 0) (fun x => by simp)
    linarith
  have n0 : ∀ y z, |e0 (F ⌊s0⌋ y z) (F (⌊s0⌋ + 1) y z)| ≤ M := fun y z => exactBlend_le (fr s0).1 (fr s0).2 (hF _ _ _) (hF _ _ _)
  have c1 : ∀ z, |b1 (b0 (F m0 m1 z) (F (m0 + 1) m1 z)) (b0 (F m0 (m1 + 1) z) (F (m0 + 1) (m1 + 1) z))
      - e1 (e0 (F ⌊s0⌋ ⌊s1⌋ z) (F (⌊s0⌋ + 1) ⌊s1⌋ z)) (e0 (F ⌊s0⌋ (⌊s1⌋ + 1) z) (F (⌊s0⌋ + 1) (⌊s1⌋ + 1) z))| ≤ 27 / 2 * δ * M := fun z => by
    have := h1.step hδ0 hδ (fun y => e0 (F ⌊s0⌋ y z) (F (⌊s0⌋ + 1) y z)) (fun y => b0 (F m0 y z) (F (m0 + 1) y z)) (fun y => n0 y z) (fun y => c0 y z)
    refine this.trans ?_
    linarith
  have n1 : ∀ z, |e1 (e0 (F ⌊s0⌋ ⌊s1⌋ z) (F (⌊s0⌋ + 1) ⌊s1⌋ z)) (e0 (F ⌊s0⌋ (⌊s1⌋ + 1) z) (F (⌊s0⌋ + 1) (⌊s1⌋ + 1) z))| ≤ M :=
    fun z => exactBlend_le (fr s1).1 (fr s1).2 (n0 _ _) (n0 _ _)
  have := h2.step hδ0 hδ (fun z => e1 (e0 (F ⌊s0⌋ ⌊s1⌋ z) (F (⌊s0⌋ + 1) ⌊s1⌋ z)) (e0 (F ⌊s0⌋ (⌊s1⌋ + 1) z) (F (⌊s0⌋ + 1) (⌊s1⌋ + 1) z)))
    (fun z => b1 (b0 (F m0 m1 z) (F (m0 + 1) m1 z)) (b0 (F m0 (m1 + 1) z) (F (m0 + 1) (m1 + 1) z))) n1 c1
  refine this.trans ?_
  linarith

theorem ax_single {w : ℚ} (hw : 0 < w) {p : Point 3} {N : ℚ} (hN : N ≤ 2 ^ 16 - 2) (i : Fin 3) (hp : |p i| ≤ N * w) :
    Ax (delta N) (p i / w - 1 / 2) (Single.pointToFloorIndex p (fl (1 / w)) i) (Single.weight w p i) := by
  refine ax_of (p i / w) w N (p i) hw (by field_simp) ?_ hN
  rw [abs_div, abs_of_pos hw, div_le_iff₀ hw]
  exact hp

theorem delta_range {w : ℚ} (hw : 0 < w) {p : Point 3} {N : ℚ} (hN : N ≤ 2 ^ 16 - 2) (hp : ∀ i, |p i| ≤ N * w) : 8 / 2 ^ 24 ≤ delta N ∧ delta N ≤ 1 / 64 := by
  have h0 : 0 ≤ N := by
    have := le_trans (abs_nonneg _) (hp 0)
    by_contra h
    have := mul_neg_of_neg_of_pos (not_le.1 h) hw
    linarith
  unfold delta
  rw [le_div_iff₀ (by positivity), div_le_iff₀ (by positivity)]
  norm_num at *
  constructor <;> linarith

end SingleInterpolate
open SingleInterpolate Interpolate

/-! ## C89 -/

/-- How far an interpolated value can be off, for values up to `M` and points at most `N` cells from the origin along each axis. -/
def interpolationError (N M : ℚ) : ℚ := 6 * (N + 2) / 2 ^ 20 * M

/-- C89: in single precision the nearest-neighbour query returns the value of a cell that contains the point, up to `4 (|p| / w + 1) / 2^24` cell widths. -/
theorem C89_nearest (w : ℚ) (hw : 0 < w) (f : Index 3 → ℚ) (p : Point 3) :
    ∃ j : Index 3, Single.nearestNeighbor w f p = f j ∧
      ∀ i, ((j i : ℚ) - cellError (p i / w)) * w ≤ p i ∧ p i ≤ ((j i : ℚ) + 1 + cellError (p i / w)) * w :=
  ⟨_, rfl, fun i => C79_nearest_contains p w hw i⟩

/-- C89: in single precision the interpolated value is the trilinear interpolation of the cells around the point (`C28`), up to a multiple of the largest absolute
value in the map that grows with the distance from the origin in cells. -/
theorem C89_trilinear (w : ℚ) (hw : 0 < w) (f : Index 3 → ℚ) (M : ℚ) (hf : ∀ j, |f j| ≤ M) (p : Point 3) (N : ℚ) (hN : N ≤ 2 ^ 16 - 2) (hp : ∀ i, |p i| ≤ N * w) :
    |Single.trilinear w f p - Interpolate.trilinear w f p| ≤ interpolationError N M := by
  obtain ⟨d0, d1⟩ := delta_range hw hN hp
  have key := three_axes d0 d1 (ax_single hw hN 0 (hp 0)) (ax_single hw hN 1 (hp 1)) (ax_single hw hN 2 (hp 2)) (fun x y z => f ![x, y, z]) (M := M) (fun _ _ _ => hf _)
  rw [single_trilinear_eq, trilinear_eq]
  have hw' : ∀ i, Interpolate.weight w p i = p i / w - 1 / 2 - ⌊p i / w - 1 / 2⌋ := fun i => by
    unfold Interpolate.weight Wavemap.pointToFloorIndex scaledPointToFloorIndex Wavemap.indexToCenterPoint
    dsimp only
    rw [show p i * (1 / w) = p i / w by ring]
    generalize ⌊p i / w - 1 / 2⌋ = k
    field_simp
    ring
  have hc : ∀ x y z : Int, corner w p x y z = ![⌊p 0 / w - 1 / 2⌋ + x, ⌊p 1 / w - 1 / 2⌋ + y, ⌊p 2 / w - 1 / 2⌋ + z] := fun x y z => by
    unfold corner Wavemap.pointToFloorIndex scaledPointToFloorIndex
    simp only [mul_one_div]
  simp only [singleCorner, hc, weightComp, hw', add_zero]
  refine key.trans ?_
  have hM : 0 ≤ M := le_trans (abs_nonneg _) (hf fun _ => 0)
  unfold interpolationError delta
  have h0 : 0 ≤ (N + 2) * M := by
    unfold delta at d0
    rw [le_div_iff₀ (by positivity)] at d0
    exact mul_nonneg (by linarith) hM
  linarith

/-- C89: the interpolated value is between the smallest and the largest value of the cells near the point, up to the same error. -/
theorem C89_between (w : ℚ) (hw : 0 < w) (f : Index 3 → ℚ) (M : ℚ) (hf : ∀ j, |f j| ≤ M) (p : Point 3) (N : ℚ) (hN : N ≤ 2 ^ 16 - 2) (hp : ∀ i, |p i| ≤ N * w)
    (lo hi : ℚ) (h : ∀ j, Near w p j → lo ≤ f j ∧ f j ≤ hi) :
    lo - interpolationError N M ≤ Single.trilinear w f p ∧ Single.trilinear w f p ≤ hi + interpolationError N M := by
  have h1 := C89_trilinear w hw f M hf p N hN hp
  have h2 := C28_trilinear_between w hw f p lo hi h
  rw [abs_le] at h1
  constructor <;> linarith

/-- C89: the weights are between 0 and 1, up to an error that grows with the distance from the origin in cells. -/
theorem C89_weights_partial (w : ℚ) (hw : 0 < w) (p : Point 3) (N : ℚ) (hN : N ≤ 2 ^ 16 - 2) (hp : ∀ i, |p i| ≤ N * w) (i : Fin 3) :
    -((N + 2) / 2 ^ 21) ≤ Single.weight w p i ∧ Single.weight w p i ≤ 1 + (N + 2) / 2 ^ 21 := by
  obtain ⟨d0, d1⟩ := delta_range hw hN hp
  have := (ax_single hw hN i (hp i)).range (le_trans (by norm_num) d0) (by linarith)
  unfold delta at this
  constructor <;> linarith [this.1, this.2]

/-! ## Counterexamples -/

/-- A point 1.05 m from the origin along the first axis, halfway between two layers of cells of 0.1 m along the others. -/
def debugPoint : Point 3 := ![fl (104999995 / 100000000), 1 / 16, 1 / 16]

/-- C89 fails for the checks of debug builds: interpolating 1.05 m from the origin in a map with cells of 0.1 m aborts the program. -/
theorem C89_check_fails : (∀ i, IsFloat (debugPoint i)) ∧ ¬ Single.weightsChecked (fl (1 / 10)) debugPoint := by
  refine ⟨?_, fun h => ?_⟩
  · intro i
    fin_cases i
    · exact isFloat_fl _
    · exact ⟨1, -4, by norm_num, by norm_num [debugPoint]⟩
    · exact ⟨1, -4, by norm_num, by norm_num [debugPoint]⟩
  · exact absurd (h 0).1 (by decide +kernel)

/-- C89 fails for the exact range: there, a value is negative although no cell of the map has a negative value. -/
theorem C89_between_fails : Single.trilinear (fl (1 / 10)) (fun j => if j 0 = 11 then 1 else 0) debugPoint < 0 := by
  decide +kernel

/-! ## The hypotheses are met -/

/-- A map with log-odds between -2 and 4 and cells of 0.1 m, up to 100 m from the origin: interpolated values are off by less than 0.03. -/
example : interpolationError 1000 4 ≤ 3 / 100 ∧ (1000 : ℚ) ≤ 2 ^ 16 - 2 := by
  unfold interpolationError; norm_num

/-- A point between two cells. -/
example : |Single.trilinear (fl (1 / 10)) (fun j => if j 0 = 11 then 1 else 0) ![fl (11 / 10), 0, 0] - Interpolate.trilinear (fl (1 / 10)) (fun j => if j 0 = 11 then 1 else 0) ![fl (11 / 10), 0, 0]|
      ≤ interpolationError 12 1 ∧ Interpolate.trilinear (fl (1 / 10)) (fun j => if j 0 = 11 then 1 else 0) ![fl (11 / 10), 0, 0] ≠ 0 := by
  refine ⟨C89_trilinear _ (by decide +kernel) _ 1 (fun j => by split <;> norm_num) _ 12 (by norm_num) (fun i => ?_), by decide +kernel⟩
  revert i
  decide +kernel

end Wavemap
