import Verif.Model.Contraction
import Verif.Lemmas.SingleMaps
import Verif.Lemmas.SingleThreshold
import Verif.Props.SinglePrecision
/-!
# Fused multiply-adds make no difference (C79, C80)

For points, the theorems of C79 hold whatever the compiler contracts. The map code only multiplies by powers of two, which is exact: its results are the same, so that
C80 holds as stated.
-/
namespace Wavemap
open Contracted

theorem Contracted.Choice.factor {q : ℚ → ℚ} (hq : Choice q) (x : ℚ) : ∃ δ : ℚ, |δ| ≤ 1 / 2 ^ 24 ∧ q x = x * (1 + δ) := by
  rcases hq x with h | h
  · rw [h]; exact fl_factor x
  · exact ⟨0, by norm_num, by rw [h]; ring⟩

theorem Contracted.Choice.exact {q : ℚ → ℚ} (hq : Choice q) {x : ℚ} (hx : IsFloat x) : q x = x := by
  rcases hq x with h | h
  · rw [h, fl_of_isFloat hx]
  · exact h

variable {d : Nat} {q : ℚ → ℚ}

/-- C79 with contraction: the centre of a cell is a point of that cell. -/
theorem C79_contracted_roundtrip (hq : Choice q) (index : Index d) (w : ℚ) (hw : 0 < w) (h : ∀ i, |index i| ≤ 2 ^ 21 - 4) :
    Contracted.pointToNearestIndex q (Single.indexToCenterPoint index w) (fl (1 / w)) = index := by
  funext i
  have hi := h i
  simp only [Contracted.pointToNearestIndex, Single.indexToCenterPoint]
  generalize index i = k at hi
  rw [fl_int (by omega : |k| < 2 ^ 24), fl_of_isFloat (isFloat_half (by omega : |k| < 2 ^ 23))]
  obtain ⟨δ1, h1, e1⟩ := fl_factor (((k : ℚ) + 1 / 2) * w)
  obtain ⟨δ2, h2, e2⟩ := fl_factor (1 / w)
  obtain ⟨δ3, h3, e3⟩ := hq.factor (fl (((k : ℚ) + 1 / 2) * w) * fl (1 / w))
  have e : q (fl (((k : ℚ) + 1 / 2) * w) * fl (1 / w)) = ((k : ℚ) + 1 / 2) * ((1 + δ1) * (1 + δ2) * (1 + δ3)) := by
    rw [e3, e1, e2]; field_simp
  have hθ := three_factors (by norm_num : (0 : ℚ) ≤ 1 / 2 ^ 24) h1 h2 h3
  generalize (1 + δ1) * (1 + δ2) * (1 + δ3) = f at e hθ
  rw [e]
  obtain ⟨δ4, h4, e4⟩ := fl_factor (((k : ℚ) + 1 / 2) * f - 1 / 2)
  apply cppRound_eq
  rw [e4]
  have hk : |(k : ℚ)| ≤ 2 ^ 21 - 4 := by exact_mod_cast hi
  have hs : |(k : ℚ) + 1 / 2| ≤ 2 ^ 21 - 7 / 2 := by
    rw [abs_le] at hk ⊢; constructor <;> linarith
  have a1 : |((k : ℚ) + 1 / 2) * (f - 1)| ≤ (2 ^ 21 - 7 / 2) * (3 * (1 / 2 ^ 24) + 3 * (1 / 2 ^ 24) ^ 2 + (1 / 2 ^ 24) ^ 3) := by
    rw [abs_mul]; exact mul_le_mul hs hθ (abs_nonneg _) (by norm_num)
  have e5 : ((k : ℚ) + 1 / 2) * f - 1 / 2 = k + ((k : ℚ) + 1 / 2) * (f - 1) := by ring
  have a2 : |((k : ℚ) + 1 / 2) * f - 1 / 2| ≤ 2 ^ 21 - 3 := by
    rw [e5]
    refine (abs_add_le _ _).trans ((add_le_add hk a1).trans ?_)
    norm_num
  have a3 : |(((k : ℚ) + 1 / 2) * f - 1 / 2) * δ4| ≤ (2 ^ 21 - 3) * (1 / 2 ^ 24) := by
    rw [abs_mul]; exact mul_le_mul a2 h4 (abs_nonneg _) (by norm_num)
  have e6 : (((k : ℚ) + 1 / 2) * f - 1 / 2) * (1 + δ4) - k = ((k : ℚ) + 1 / 2) * (f - 1) + (((k : ℚ) + 1 / 2) * f - 1 / 2) * δ4 := by ring
  rw [e6]
  refine lt_of_le_of_lt ((abs_add_le _ _).trans (add_le_add a1 a3)) ?_
  norm_num

theorem contracted_err (hq : Choice q) (p w : ℚ) (hw : 0 < w) : |fl (q (p * fl (1 / w)) - 1 / 2) - (p / w - 1 / 2)| < cellError (p / w) := by
  obtain ⟨δ2, h2, e2⟩ := fl_factor (1 / w)
  obtain ⟨δ3, h3, e3⟩ := hq.factor (p * fl (1 / w))
  have e : q (p * fl (1 / w)) = p / w * ((1 + δ2) * (1 + δ3)) := by
    rw [e3, e2]; field_simp
  have hθ := two_factors (by norm_num : (0 : ℚ) ≤ 1 / 2 ^ 24) h2 h3
  generalize (1 + δ2) * (1 + δ3) = f at e hθ
  rw [e]
  generalize p / w = x
  obtain ⟨δ4, h4, e4⟩ := fl_factor (x * f - 1 / 2)
  rw [e4]
  have a1 : |x * (f - 1)| ≤ |x| * (2 * (1 / 2 ^ 24) + (1 / 2 ^ 24) ^ 2) := by
    rw [abs_mul]; exact mul_le_mul_of_nonneg_left hθ (abs_nonneg _)
  have a2 : |x * f - 1 / 2| ≤ |x| * (1 + 1 / 2 ^ 22) + 1 / 2 := by
    rw [show x * f - 1 / 2 = x + x * (f - 1) - 1 / 2 by ring]
    have := abs_sub (x + x * (f - 1)) (1 / 2)
    have h' := abs_add_le x (x * (f - 1))
    rw [abs_of_pos (by norm_num : (0 : ℚ) < 1 / 2)] at this
    have hx := abs_nonneg x
    nlinarith
  have a3 : |(x * f - 1 / 2) * δ4| ≤ (|x| * (1 + 1 / 2 ^ 22) + 1 / 2) * (1 / 2 ^ 24) := by
    rw [abs_mul]
    have := abs_nonneg x
    exact mul_le_mul a2 h4 (abs_nonneg _) (by positivity)
  rw [show (x * f - 1 / 2) * (1 + δ4) - (x - 1 / 2) = x * (f - 1) + (x * f - 1 / 2) * δ4 by ring]
  refine lt_of_le_of_lt ((abs_add_le _ _).trans (add_le_add a1 a3)) ?_
  unfold cellError
  have hx := abs_nonneg x
  rw [lt_div_iff₀ (by norm_num)]
  nlinarith

/-- C79 with contraction: the cell that a point is assigned to contains it, up to the rounding error. -/
theorem C79_contracted_contains (hq : Choice q) (p : Point d) (w : ℚ) (hw : 0 < w) (i : Fin d) :
    ((Contracted.pointToNearestIndex q p (fl (1 / w)) i : ℚ) - cellError (p i / w)) * w ≤ p i ∧
      p i ≤ ((Contracted.pointToNearestIndex q p (fl (1 / w)) i : ℚ) + 1 + cellError (p i / w)) * w := by
  simp only [Contracted.pointToNearestIndex]
  have h1 := contracted_err hq (p i) w hw
  have h2 := cppRound_err (fl (q (p i * fl (1 / w)) - 1 / 2))
  generalize cppRound (fl (q (p i * fl (1 / w)) - 1 / 2)) = k at h2
  rw [abs_le] at h2
  rw [abs_lt] at h1
  rw [← le_div_iff₀ hw, ← div_le_iff₀ hw]
  constructor <;> linarith

/-- C79 with contraction: a point whose distance from the border of its cell is larger than the rounding error is assigned to this cell. -/
theorem C79_contracted_interior (hq : Choice q) (p : Point d) (w : ℚ) (hw : 0 < w) (index : Index d)
    (h : ∀ i, ((index i : ℚ) + cellError (p i / w)) * w ≤ p i ∧ p i ≤ ((index i : ℚ) + 1 - cellError (p i / w)) * w) :
    Contracted.pointToNearestIndex q p (fl (1 / w)) = index := by
  funext i
  obtain ⟨h1, h2⟩ := h i
  rw [← le_div_iff₀ hw] at h1
  rw [← div_le_iff₀ hw] at h2
  have h3 := contracted_err hq (p i) w hw
  rw [abs_lt] at h3
  apply cppRound_eq
  rw [abs_lt]
  constructor <;> linarith

/-! ## Maps -/

/-- Reading a child: the same value with and without contraction. -/
theorem C80_contracted_read (hq : Choice q) (parent : Parent 3) (hf : ∀ i, IsFloat (parent.details i)) (c : Fin (2 ^ 3)) :
    Contracted.backwardSingleChild q parent c = Rounded.backwardSingleChild fl parent c := by
  unfold Contracted.backwardSingleChild Rounded.backwardSingleChild
  congr 1
  funext scale i
  dsimp only
  have h := (hf i).div_exp2 (popcount (i.val + 1))
  rw [hq.exact h, fl_of_isFloat h]

/-- Adding to a cell: the same details with and without contraction, and the same scale to go on with. -/
theorem C80_contracted_add (hq : Choice q) (details : Details 3) (u : ℚ) (hu : IsFloat u) (c : Fin (2 ^ 3)) :
    Contracted.addDetails q details u c = (fun i => fl (details i + (Rounded.forwardSingleChild fl u c).details i)) ∧
    (Rounded.forwardSingleChild q u c).scale = (Rounded.forwardSingleChild fl u c).scale := by
  have h : Rounded.forwardSingleChild q u c = Rounded.forwardSingleChild fl u c := by
    unfold Rounded.forwardSingleChild
    congr 1
    funext p
    have h : IsFloat ((if parity (Haar.andNot p.val c.val) then -u else u) / (exp2 (3 - popcount p.val) : Nat)) := by
      apply IsFloat.div_exp2
      split
      · exact hu.neg
      · exact hu
    rw [hq.exact h, fl_of_isFloat h]
  unfold Contracted.addDetails
  rw [h]
  exact ⟨rfl, rfl⟩

theorem getLt_isFloat {n : Nat} {a : Fin n → ℚ} (h : ∀ i, IsFloat (a i)) (i : Nat) : IsFloat (Haar.getLt a i) := by
  unfold Haar.getLt
  split
  · exact h _
  · exact isFloat_zero

theorem set_isFloat {n : Nat} {a : Fin n → ℚ} (h : ∀ i, IsFloat (a i)) (i : Nat) {v : ℚ} (hv : IsFloat v) (j : Fin n) : IsFloat (Haar.set a i v j) := by
  unfold Haar.set
  split
  · exact hv
  · exact h j

theorem half_isFloat {x : ℚ} (h : IsFloat x) : IsFloat (1 / 2 * x) := by
  have := h.div_pow 1
  rwa [show x / 2 ^ 1 = 1 / 2 * x by ring] at this

theorem forwardBeam_contracted (hq : Choice q) (k : Nat) (a : Coeffs 3) (h : ∀ i, IsFloat (a i)) (b : Nat) :
    Contracted.forwardBeam q k a b = Rounded.forwardBeam fl k a b ∧ ∀ i, IsFloat (Rounded.forwardBeam fl k a b i) := by
  unfold Contracted.forwardBeam Rounded.forwardBeam
  dsimp only
  have h1 : ∀ i, IsFloat (Haar.set a (Haar.squeezeIn b true k) (fl (Haar.getLt a (Haar.squeezeIn b true k) - Haar.getLt a (Haar.squeezeIn b false k))) i) :=
    set_isFloat h _ (isFloat_fl _)
  have h2 := half_isFloat (getLt_isFloat h1 (Haar.squeezeIn b true k))
  rw [hq.exact h2, fl_of_isFloat h2]
  exact ⟨rfl, set_isFloat h1 _ (isFloat_fl _)⟩

theorem backwardBeam_contracted (hq : Choice q) (k : Nat) (a : Coeffs 3) (h : ∀ i, IsFloat (a i)) (b : Nat) :
    Contracted.backwardBeam q k a b = Rounded.backwardBeam fl k a b ∧ ∀ i, IsFloat (Rounded.backwardBeam fl k a b i) := by
  unfold Contracted.backwardBeam Rounded.backwardBeam
  dsimp only
  have h2 := half_isFloat (getLt_isFloat h (Haar.squeezeIn b true k))
  rw [hq.exact h2, fl_of_isFloat h2]
  exact ⟨rfl, set_isFloat (set_isFloat h _ (isFloat_fl _)) _ (isFloat_fl _)⟩

/-- Equal steps give equal loops. -/
theorem foldl_contracted {β : Type} {f g : Coeffs 3 → β → Coeffs 3} (hfg : ∀ a b, (∀ i, IsFloat (a i)) → f a b = g a b ∧ ∀ i, IsFloat (g a b i)) (l : List β) :
    ∀ a : Coeffs 3, (∀ i, IsFloat (a i)) → l.foldl f a = l.foldl g a ∧ ∀ i, IsFloat (l.foldl g a i) := by
  induction l with
  | nil => intro a h; exact ⟨rfl, h⟩
  | cons b l ih =>
    intro a h
    rw [List.foldl_cons, List.foldl_cons, (hfg a b h).1]
    exact ih _ (hfg a b h).2

/-- The transforms used by thresholding and pruning: the same result with and without contraction. -/
theorem C80_contracted_transforms (hq : Choice q) (children : Coeffs 3) (parent : Parent 3) (hc : ∀ i, IsFloat (children i)) (hp : ∀ i, IsFloat (parent.get i)) :
    Contracted.forward q children = Rounded.forward fl children ∧ Contracted.backward q parent = Rounded.backward fl parent := by
  constructor
  · unfold Contracted.forward Rounded.forward
    rw [(foldl_contracted (fun a k h => foldl_contracted (fun a b h => forwardBeam_contracted hq k a h b) _ a h) _ children hc).1]
  · unfold Contracted.backward Rounded.backward
    exact (foldl_contracted (fun a k h => foldl_contracted (fun a b h => backwardBeam_contracted hq k a h b) _ a h) _ parent.get hp).1

/-! ## The hypotheses can be met -/

/-- Both extremes are choices. -/
example : Choice fl ∧ Choice id := ⟨fun _ => Or.inl rfl, fun _ => Or.inr rfl⟩

example : ∀ i : Fin (2 ^ 3), IsFloat ((fun i : Fin (2 ^ 3) => (i.val : ℚ) / 4) i) := fun i =>
  ⟨i.val, -2, by have := i.isLt; rw [abs_of_nonneg (by omega)]; omega, by norm_num [zpow_neg]; ring⟩

end Wavemap
