import Verif.Model.SingleMaps
import Verif.Lemmas.Float32
import Verif.Lemmas.Wavelet
import Mathlib.Tactic.IntervalCases
/-! # Helper lemmas about maps in single precision -/
namespace Wavemap
open Haar NTree

namespace Rounded

/-! ## With exact operations, the functions are those of the exact model -/

theorem forwardSingleChild_id (u : ℚ) (c : Fin (2 ^ 3)) : forwardSingleChild id u c = Haar.forwardSingleChild 3 u c := rfl

theorem backwardSingleChild_id (p : Parent 3) (c : Fin (2 ^ 3)) : backwardSingleChild id p c = Haar.backwardSingleChild 3 p c := rfl

theorem getValue_id (t : WTree) (v : ℚ) (p : List (Fin (2 ^ 3))) : getValue id t v p = t.getValue v p := by
  induction p generalizing t v with
  | nil => simp [getValue, WTree.getValue]
  | cons c p ih =>
    unfold getValue WTree.getValue
    rw [ih, backwardSingleChild_id]

theorem addPath_id (t : WTree) (p : List (Fin (2 ^ 3))) (u : ℚ) : addPath id t p u = t.addPath p u := by
  induction p generalizing t with
  | nil => simp [addPath, WTree.addPath]
  | cons c p ih =>
    cases p with
    | nil => simp [addPath, WTree.addPath, forwardSingleChild_id]
    | cons c' q => simp only [addPath, WTree.addPath, forwardSingleChild_id, ih, id]

end Rounded

/-- The unit roundoff. -/
def ulp1 : ℚ := 1 / 2 ^ 24

theorem ulp1_pos : 0 < ulp1 := by unfold ulp1; norm_num

theorem fl_err' (x : ℚ) : |fl x - x| ≤ |x| * ulp1 := by
  have := fl_err x
  unfold ulp1
  rw [mul_one_div]; exact this

/-- The normalisation of a detail coefficient. -/
def detailWeight (i : Fin (2 ^ 3 - 1)) : ℚ := (exp2 (popcount (i.val + 1)) : Nat)

theorem exp2_cast (n : Nat) : ((exp2 n : Nat) : ℚ) = 2 ^ n := by simp [exp2, Nat.shiftLeft_eq]

theorem detailWeight_pos (i : Fin (2 ^ 3 - 1)) : 0 < detailWeight i := by
  unfold detailWeight; rw [exp2_cast]; positivity

/-- Details of a node are bounded by the values of its children. -/
theorem details_bound (v : ℚ) (a : Details 3) (B : ℚ) (h : ∀ c, |Haar.backwardSingleChild 3 ⟨v, a⟩ c| ≤ B) (i : Fin (2 ^ 3 - 1)) :
    |a i| ≤ detailWeight i * B := by
  have h1 : (forwardParallel 3 (backward 3 ⟨v, a⟩)).details i = a i := by
    rw [← forward_eq_parallel 3 h3, C10_forward_backward 3 h3]
  rw [← h1]
  have h2 : ∀ c, |backward 3 ⟨v, a⟩ c| ≤ B := fun c => by rw [bwd3_single]; exact h c
  generalize backward 3 ⟨v, a⟩ = x at h2
  have e : ∀ c, |(if parity (andNot (i.val + 1) c.val) then -x c else x c)| ≤ B := by
    intro c; split
    · rw [abs_neg]; exact h2 c
    · exact h2 c
  unfold forwardParallel Parent.ofArray
  dsimp only
  rw [foldl_add_eq, zero_add, abs_div]
  have hs : |((List.finRange (2 ^ 3)).map fun c => (if parity (andNot (i.val + 1) c.val) then -x c else x c)).sum| ≤ 8 * B := by
    have hl : ∀ l : List (Fin (2 ^ 3)), |(l.map fun c => (if parity (andNot (i.val + 1) c.val) then -x c else x c)).sum| ≤ l.length * B := by
      intro l
      induction l with
      | nil => simp
      | cons c l ih =>
        rw [List.map_cons, List.sum_cons, List.length_cons]
        refine (abs_add_le _ _).trans ((add_le_add (e c) ih).trans ?_)
        push_cast; linarith
    have := hl (List.finRange (2 ^ 3))
    rw [List.length_finRange] at this
    norm_num at this ⊢
    exact this
  have hpos : (0 : ℚ) < (exp2 (3 - popcount (i.val + 1)) : Nat) := by rw [exp2_cast]; positivity
  rw [abs_of_pos hpos, div_le_iff₀ hpos]
  refine hs.trans (le_of_eq ?_)
  unfold detailWeight
  rw [exp2_cast, exp2_cast]
  have hp : ∀ j : Fin (2 ^ 3 - 1), popcount (j.val + 1) ≤ 3 := by decide
  have := hp i
  have e2 : (2 : ℚ) ^ popcount (i.val + 1) * 2 ^ (3 - popcount (i.val + 1)) = 8 := by
    rw [← pow_add, Nat.add_sub_cancel' this]; norm_num
  calc 8 * B = (2 ^ popcount (i.val + 1) * 2 ^ (3 - popcount (i.val + 1))) * B := by rw [e2]
    _ = _ := by ring

/-- Perturbing the coefficients of a node. -/
theorem bwd_perturb (v v' : ℚ) (a a' : Details 3) (δ ε : ℚ) (hv : |v' - v| ≤ ε) (ha : ∀ i, |a' i - a i| ≤ detailWeight i * δ) (c : Fin (2 ^ 3)) :
    |Haar.backwardSingleChild 3 ⟨v', a'⟩ c - Haar.backwardSingleChild 3 ⟨v, a⟩ c| ≤ ε + 7 * δ := by
  rw [bwd_single_eq, bwd_single_eq]
  dsimp only
  have hl : ∀ l : List (Fin (2 ^ 3 - 1)),
      |(l.map fun i => sgn (i.val + 1) c.val * (a' i / (exp2 (popcount (i.val + 1)) : Nat))).sum
        - (l.map fun i => sgn (i.val + 1) c.val * (a i / (exp2 (popcount (i.val + 1)) : Nat))).sum| ≤ l.length * δ := by
    intro l
    induction l with
    | nil => simp
    | cons i l ih =>
      rw [List.map_cons, List.sum_cons, List.map_cons, List.sum_cons, List.length_cons]
      have h1 : |sgn (i.val + 1) c.val * (a' i / (exp2 (popcount (i.val + 1)) : Nat)) - sgn (i.val + 1) c.val * (a i / (exp2 (popcount (i.val + 1)) : Nat))| ≤ δ := by
        rw [← mul_sub, ← sub_div, abs_mul, abs_div]
        have hs : |sgn (i.val + 1) c.val| = 1 := by unfold sgn; split <;> simp
        have hw := detailWeight_pos i
        rw [hs, one_mul]
        show |a' i - a i| / |detailWeight i| ≤ δ
        rw [abs_of_pos hw, div_le_iff₀ hw, mul_comm]; exact ha i
      generalize sgn (i.val + 1) c.val * (a' i / (exp2 (popcount (i.val + 1)) : Nat)) = x1 at h1 ⊢
      generalize sgn (i.val + 1) c.val * (a i / (exp2 (popcount (i.val + 1)) : Nat)) = x2 at h1 ⊢
      generalize (l.map fun i => sgn (i.val + 1) c.val * (a' i / (exp2 (popcount (i.val + 1)) : Nat))).sum = x3 at ih ⊢
      generalize (l.map fun i => sgn (i.val + 1) c.val * (a i / (exp2 (popcount (i.val + 1)) : Nat))).sum = x4 at ih ⊢
      rw [abs_le] at h1 ih ⊢
      push_cast
      constructor <;> linarith [h1.1, h1.2, ih.1, ih.2]
  have := hl (List.finRange (2 ^ 3 - 1))
  rw [List.length_finRange] at this
  norm_num at this
  rw [abs_le] at hv this ⊢
  constructor <;> linarith [hv.1, hv.2, this.1, this.2]

/-- All coefficients of the tree are single precision numbers. -/
def FloatTree (t : WTree) : Prop := ∀ q i, IsFloat (WTree.details (t.descend q) i)

theorem FloatTree.child {t : WTree} (h : FloatTree t) (c : Fin (2 ^ 3)) : FloatTree (t.child c) := fun q i => by
  have := h (c :: q) i; rwa [descend_cons] at this

theorem FloatTree.root {t : WTree} (h : FloatTree t) (i) : IsFloat (WTree.details t i) := by
  have := h [] i; rwa [descend_nil'] at this

theorem floatTree_leaf (a : Details 3) (h : ∀ i, IsFloat (a i)) : FloatTree (.leaf a) := by
  intro q i
  cases q with
  | nil => rw [descend_nil']; exact h i
  | cons c q => rw [descend_cons, child_leaf, nil_descend]; exact isFloat_zero

theorem floatTree_zero : FloatTree (.leaf zeroDetails) := floatTree_leaf _ fun _ => isFloat_zero

theorem FloatTree.getOrAllocate {t : WTree} (h : FloatTree t) (c : Fin (2 ^ 3)) : FloatTree (t.getOrAllocateChild c zeroDetails) := by
  have h1 := h.child c
  unfold NTree.getOrAllocateChild
  cases hc : t.child c with
  | nil => exact floatTree_zero
  | leaf a => rw [hc] at h1; exact h1
  | node a ch => rw [hc] at h1; exact h1

theorem IsFloat.div_exp2 {x : ℚ} (h : IsFloat x) (n : Nat) : IsFloat (x / (exp2 n : Nat)) := by
  rw [exp2_cast]; exact h.div_pow n

/-- The forward transform of one child is exact. -/
theorem fwd_single_exact {u : ℚ} (hu : IsFloat u) (c : Fin (2 ^ 3)) : Rounded.forwardSingleChild fl u c = Haar.forwardSingleChild 3 u c := by
  unfold Rounded.forwardSingleChild Haar.forwardSingleChild
  congr 1
  funext p
  apply fl_of_isFloat
  apply IsFloat.div_exp2
  split
  · exact hu.neg
  · exact hu

theorem fwd_single_scale_isFloat {u : ℚ} (hu : IsFloat u) (c : Fin (2 ^ 3)) : IsFloat (Haar.forwardSingleChild 3 u c).scale := by
  rw [fwd3_single_scale]
  have := hu.div_pow 3
  norm_num at this; exact this

/-- The error of an addition, in terms of the values that exact arithmetic reads from the result. -/
theorem addPath_close (t : WTree) (ht : t ≠ .nil) (hf : FloatTree t) (p : List (Fin (2 ^ 3))) (u : ℚ) (hu : IsFloat u) (B : ℚ) (hB : 0 ≤ B) (n : Nat)
    (hb : ∀ q, q.length < n → ∀ i, |WTree.details ((t.addPath p u).1.descend q) i| ≤ detailWeight i * B) :
    (Rounded.addPath fl t p u).2 = (t.addPath p u).2 ∧ IsFloat (t.addPath p u).2 ∧ FloatTree (Rounded.addPath fl t p u).1 ∧
      (Rounded.addPath fl t p u).1 ≠ .nil ∧
      ∀ v q, q.length ≤ n → |(Rounded.addPath fl t p u).1.getValue v q - (t.addPath p u).1.getValue v q| ≤ 7 * q.length * (B * ulp1) := by
  have hBu : 0 ≤ B * ulp1 := mul_nonneg hB ulp1_pos.le
  induction p generalizing t n with
  | nil =>
    simp only [Rounded.addPath, WTree.addPath]
    refine ⟨trivial, hu, hf, ht, fun v q _ => ?_⟩
    rw [sub_self, abs_zero]; positivity
  | cons c p ih =>
    -- one node with new details and one new child
    have key : ∀ (sF sE : WTree) (x : ℚ), sF ≠ .nil → sE ≠ .nil → IsFloat x → FloatTree sF →
        (∀ n', (∀ q : List (Fin (2 ^ 3)), q.length < n' → ∀ i, |WTree.details ((sE.child c).descend q) i| ≤ detailWeight i * B) →
          ∀ (v : ℚ) (q : List (Fin (2 ^ 3))), q.length ≤ n' → |WTree.getValue (sF.child c) v q - WTree.getValue (sE.child c) v q| ≤ 7 * q.length * (B * ulp1)) →
        (∀ c', c' ≠ c → sF.child c' = sE.child c') →
        (∀ q, q.length < n → ∀ i, |WTree.details ((sE.withDetails fun i => WTree.details t i + (Haar.forwardSingleChild 3 x c).details i).descend q) i| ≤ detailWeight i * B) →
        FloatTree (sF.withDetails fun i => fl (WTree.details t i + (Haar.forwardSingleChild 3 x c).details i)) ∧
        ∀ v q, q.length ≤ n → |(sF.withDetails fun i => fl (WTree.details t i + (Haar.forwardSingleChild 3 x c).details i)).getValue v q
          - (sE.withDetails fun i => WTree.details t i + (Haar.forwardSingleChild 3 x c).details i).getValue v q| ≤ 7 * q.length * (B * ulp1) := by
      intro sF sE x hF hE hx hfl hchild hother hbound
      constructor
      · intro q i
        cases q with
        | nil =>
          rw [descend_nil']; unfold WTree.withDetails
          rw [WTree.details_setData _ hF]; exact isFloat_fl _
        | cons c' q =>
          rw [descend_cons]; unfold WTree.withDetails
          rw [WTree.setData_child]
          exact hfl.child c' q i
      · intro v q hq
        cases q with
        | nil => simp only [WTree.getValue_nil_path, sub_self, abs_zero]; positivity
        | cons c' q =>
          rw [List.length_cons] at hq
          unfold WTree.withDetails
          rw [WTree.getValue_cons _ (WTree.setData_ne_nil _ hF _), WTree.getValue_cons _ (WTree.setData_ne_nil _ hE _),
            WTree.details_setData _ hF, WTree.details_setData _ hE, WTree.setData_child, WTree.setData_child]
          have hroot : ∀ i, |fl (WTree.details t i + (Haar.forwardSingleChild 3 x c).details i) - (WTree.details t i + (Haar.forwardSingleChild 3 x c).details i)|
              ≤ detailWeight i * (B * ulp1) := by
            intro i
            have h0 := hbound [] (by simp; omega) i
            rw [descend_nil'] at h0; unfold WTree.withDetails at h0
            rw [WTree.details_setData _ hE] at h0
            refine (fl_err' _).trans ?_
            rw [← mul_assoc]
            exact mul_le_mul_of_nonneg_right h0 ulp1_pos.le
          have h1 := bwd_perturb v v _ _ (B * ulp1) 0 (by simp) hroot c'
          generalize Haar.backwardSingleChild 3 ⟨v, fun i => fl (WTree.details t i + (Haar.forwardSingleChild 3 x c).details i)⟩ c' = wF at h1 ⊢
          generalize Haar.backwardSingleChild 3 ⟨v, fun i => WTree.details t i + (Haar.forwardSingleChild 3 x c).details i⟩ c' = wE at h1 ⊢
          have h2 : |WTree.getValue (sF.child c') wF q - WTree.getValue (sE.child c') wF q| ≤ 7 * q.length * (B * ulp1) := by
            by_cases hc : c' = c
            · subst hc
              apply hchild (n - 1)
              · intro q' hq' i
                have h0 := hbound (c' :: q') (by simp; omega) i
                rw [descend_cons] at h0; unfold WTree.withDetails at h0
                rw [WTree.setData_child] at h0
                exact h0
              · omega
            · rw [hother c' hc, sub_self, abs_zero]; positivity
          have h3 : WTree.getValue (sE.child c') wF q = WTree.getValue (sE.child c') wE q + (wF - wE) := by
            rw [← WTree.getValue_shift]; congr 1; ring
          rw [h3] at h2
          rw [List.length_cons]
          push_cast
          rw [abs_le] at h1 h2 ⊢
          constructor <;> linarith [h1.1, h1.2, h2.1, h2.2]
    cases p with
    | nil =>
      simp only [Rounded.addPath, WTree.addPath] at hb ⊢
      rw [fwd_single_exact hu]
      have k := key t t u ht ht hu hf (fun n' _ v q _ => by rw [sub_self, abs_zero]; positivity) (fun _ _ => rfl) hb
      exact ⟨rfl, fwd_single_scale_isFloat hu c, k.1, WTree.setData_ne_nil _ ht _, k.2⟩
    | cons c1 p =>
      simp only [Rounded.addPath, WTree.addPath] at hb ⊢
      have hne := getOrAllocateChild_ne_nil t c zeroDetails
      have hfc := hf.getOrAllocate c
      have h0 := ih (t.getOrAllocateChild c zeroDetails) hne hfc 0 (by intro q hq; omega)
      have hxs := h0.2.1
      rw [h0.1, fwd_single_exact hxs]
      have hch : ∀ (s : WTree) c', (t.setChild c s).child c' = if c' = c then s else t.child c' := fun s c' => setChild_child t ht c c' s
      have k := key (t.setChild c (Rounded.addPath fl (t.getOrAllocateChild c zeroDetails) (c1 :: p) u).1)
        (t.setChild c (WTree.addPath (t.getOrAllocateChild c zeroDetails) (c1 :: p) u).1) _
        (setChild_ne_nil _ ht _ _) (setChild_ne_nil _ ht _ _) hxs
        (by
          intro q i
          cases q with
          | nil =>
            rw [descend_nil']
            have : WTree.details (t.setChild c (Rounded.addPath fl (t.getOrAllocateChild c zeroDetails) (c1 :: p) u).1) = WTree.details t := by
              cases t <;> rfl
            rw [this]; exact hf.root i
          | cons c' q =>
            rw [descend_cons, hch]
            split
            · exact h0.2.2.1 q i
            · exact hf.child c' q i)
        (by
          intro n' hn'
          simp only [hch, if_true] at hn' ⊢
          exact (ih (t.getOrAllocateChild c zeroDetails) hne hfc n' hn').2.2.2.2)
        (by intro c' hc'; rw [hch, hch, if_neg hc', if_neg hc'])
        hb
      exact ⟨rfl, fwd_single_scale_isFloat hxs c, k.1, WTree.setData_ne_nil _ (setChild_ne_nil _ ht _ _) _, k.2⟩

/-- Values within `B` at all nodes up to depth `n` bound the coefficients. -/
theorem coefficients_bound {t : WTree} {v B : ℚ} {n : Nat} (hB : 0 ≤ B) (h : ∀ q : List (Fin (2 ^ 3)), q.length ≤ n → |t.getValue v q| ≤ B)
    (q : List (Fin (2 ^ 3))) (hq : q.length < n) (i : Fin (2 ^ 3 - 1)) : |WTree.details (t.descend q) i| ≤ detailWeight i * B := by
  by_cases hn : t.descend q = .nil
  · rw [hn]
    show |(0 : ℚ)| ≤ _
    rw [abs_zero]
    exact mul_nonneg (detailWeight_pos i).le hB
  · apply details_bound (t.getValue v q)
    intro c
    have := h (q ++ [c]) (by simp; omega)
    rwa [WTree.getValue_append, WTree.getValue_cons _ hn, WTree.getValue_nil_path] at this

/-- A map in single precision, compared to one with exact arithmetic. -/
structure Close (n : Nat) (t : WTree) (s : ℚ) (tE : WTree) (sE ε : ℚ) : Prop where
  ne : t ≠ .nil
  neE : tE ≠ .nil
  floats : FloatTree t
  scale : IsFloat s
  values : ∀ q : List (Fin (2 ^ 3)), q.length ≤ n → |t.getValue s q - tE.getValue sE q| ≤ ε

theorem Close.add {n : Nat} {t tE : WTree} {s sE ε : ℚ} (h : Close n t s tE sE ε) (p : List (Fin (2 ^ 3))) (u : ℚ) (hu : IsFloat u) (A : ℚ) (hA : 0 ≤ A)
    (hb : ∀ q : List (Fin (2 ^ 3)), q.length ≤ n → |(tE.addPath p u).1.getValue (sE + (tE.addPath p u).2) q| ≤ A) :
    Close n (Rounded.addPath fl t p u).1 (fl (s + (Rounded.addPath fl t p u).2)) (tE.addPath p u).1 (sE + (tE.addPath p u).2)
      (ε + (7 * n + 1) * (A + ε) * ulp1) := by
  have hε : 0 ≤ ε := (abs_nonneg _).trans (h.values [] (by simp))
  have hB : 0 ≤ A + ε := add_nonneg hA hε
  -- exact addition to the rounded map
  have hG : ∀ q : List (Fin (2 ^ 3)), q.length ≤ n →
      |(t.addPath p u).1.getValue (s + (t.addPath p u).2) q - (tE.addPath p u).1.getValue (sE + (tE.addPath p u).2) q| ≤ ε := by
    intro q hq
    rw [WTree.addPath_getValue _ h.ne, WTree.addPath_getValue _ h.neE, add_sub_add_right_eq_sub]
    exact h.values q hq
  have hGB : ∀ q : List (Fin (2 ^ 3)), q.length ≤ n → |(t.addPath p u).1.getValue (s + (t.addPath p u).2) q| ≤ A + ε := by
    intro q hq
    have h1 := hG q hq
    have h2 := hb q hq
    rw [abs_le] at h1 h2 ⊢
    constructor <;> linarith [h1.1, h1.2, h2.1, h2.2]
  obtain ⟨e2, hx, hfl, hne, hcl⟩ := addPath_close t h.ne h.floats p u hu (A + ε) hB n (coefficients_bound hB hGB)
  refine ⟨hne, WTree.addPath_ne_nil _ h.neE _ _, hfl, isFloat_fl _, fun q hq => ?_⟩
  have h1 := hcl (fl (s + (t.addPath p u).2)) q hq
  have h2 : (t.addPath p u).1.getValue (fl (s + (t.addPath p u).2)) q
      = (t.addPath p u).1.getValue (s + (t.addPath p u).2) q + (fl (s + (t.addPath p u).2) - (s + (t.addPath p u).2)) := by
    rw [← WTree.getValue_shift]; congr 1; ring
  have h3 : |fl (s + (t.addPath p u).2) - (s + (t.addPath p u).2)| ≤ (A + ε) * ulp1 := by
    refine (fl_err' _).trans (mul_le_mul_of_nonneg_right ?_ ulp1_pos.le)
    have := hGB [] (by simp)
    rwa [WTree.getValue_nil_path] at this
  have h4 := hG q hq
  have h5 : 7 * (q.length : ℚ) * ((A + ε) * ulp1) ≤ 7 * n * ((A + ε) * ulp1) := by
    have : (q.length : ℚ) ≤ n := by exact_mod_cast hq
    have h0 : 0 ≤ (A + ε) * ulp1 := mul_nonneg hB ulp1_pos.le
    exact mul_le_mul_of_nonneg_right (by linarith) h0
  rw [e2]
  rw [h2] at h1
  rw [abs_le] at h1 h3 h4 ⊢
  constructor <;> linarith [h1.1, h1.2, h3.1, h3.2, h4.1, h4.2]

/-- The error of one step of a read. -/
theorem bwd_single_fl (v vF : ℚ) (a : Details 3) (hf : ∀ i, IsFloat (a i)) (B η : ℚ) (hη : |vF - v| ≤ η) (hv : |v| ≤ B) (ha : ∀ i, |a i| ≤ detailWeight i * B)
    (c : Fin (2 ^ 3)) :
    |Rounded.backwardSingleChild fl ⟨vF, a⟩ c - Haar.backwardSingleChild 3 ⟨v, a⟩ c| ≤ (1 + ulp1) ^ 7 * (η + 56 * B * ulp1) := by
  have hB : 0 ≤ B := (abs_nonneg _).trans hv
  have hη0 : 0 ≤ η := (abs_nonneg _).trans hη
  have hc : ∀ i : Fin (2 ^ 3 - 1), fl (a i / (exp2 (popcount (i.val + 1)) : Nat)) = a i / (exp2 (popcount (i.val + 1)) : Nat) :=
    fun i => fl_of_isFloat ((hf i).div_exp2 _)
  unfold Rounded.backwardSingleChild Haar.backwardSingleChild
  simp only [hc]
  set w : Fin (2 ^ 3 - 1) → ℚ := fun i => if parity (andNot (i.val + 1) c.val) then -(a i / (exp2 (popcount (i.val + 1)) : Nat)) else a i / (exp2 (popcount (i.val + 1)) : Nat) with hw
  have hwB : ∀ i, |w i| ≤ B := by
    intro i
    have : |w i| = |a i / (exp2 (popcount (i.val + 1)) : Nat)| := by
      rw [hw]; dsimp only; split
      · rw [abs_neg]
      · rfl
    rw [this, abs_div]
    have hp := detailWeight_pos i
    show |a i| / |detailWeight i| ≤ B
    rw [abs_of_pos hp, div_le_iff₀ hp, mul_comm]; exact ha i
  have hl : ∀ (l : List (Fin (2 ^ 3 - 1))) (x xF η : ℚ) (k : Nat), 0 ≤ η → |xF - x| ≤ η → |x| ≤ k * B → k + l.length ≤ 8 →
      |l.foldl (fun scale i => fl (scale + w i)) xF - l.foldl (fun scale i => scale + w i) x| ≤ (1 + ulp1) ^ l.length * (η + 8 * l.length * B * ulp1) := by
    intro l
    induction l with
    | nil => intro x xF η k _ h _ _; simpa using h
    | cons i l ih =>
      intro x xF η k h0 h hx hk
      rw [List.length_cons] at hk
      have hwi := hwB i
      have hx' : |x + w i| ≤ ((k + 1 : Nat) : ℚ) * B := by
        refine (abs_add_le _ _).trans ((add_le_add hx hwi).trans (le_of_eq ?_)); push_cast; ring
      have h8 : ((k + 1 : Nat) : ℚ) * B ≤ 8 * B := by
        apply mul_le_mul_of_nonneg_right _ hB
        exact_mod_cast (by omega : k + 1 ≤ 8)
      have hu := ulp1_pos
      have hstep : |fl (xF + w i) - (x + w i)| ≤ (1 + ulp1) * η + 8 * B * ulp1 := by
        have e1 := fl_err' (xF + w i)
        have e2 : |xF + w i| ≤ η + 8 * B := by
          have : xF + w i = (xF - x) + (x + w i) := by ring
          rw [this]
          exact (abs_add_le _ _).trans (add_le_add h (hx'.trans h8))
        have e3 := mul_le_mul_of_nonneg_right e2 hu.le
        have : fl (xF + w i) - (x + w i) = (fl (xF + w i) - (xF + w i)) + (xF - x) := by ring
        rw [this]
        refine (abs_add_le _ _).trans ((add_le_add (e1.trans e3) h).trans (le_of_eq (by ring)))
      rw [List.foldl_cons, List.foldl_cons]
      refine (ih _ _ _ (k + 1) (by positivity) hstep hx' (by omega)).trans ?_
      rw [List.length_cons]
      generalize l.length = j
      rw [pow_succ, mul_assoc ((1 + ulp1) ^ j)]
      apply mul_le_mul_of_nonneg_left _ (by positivity)
      push_cast
      have h9 : 0 ≤ (8 * ((j : ℚ) + 1) * B * ulp1) * ulp1 := by positivity
      nlinarith [h9]
  have := hl (List.finRange (2 ^ 3 - 1)) v vF η 1 hη0 hη (by simpa using hv) (by rw [List.length_finRange]; decide)
  rw [List.length_finRange] at this
  norm_num at this ⊢
  exact this

theorem ulp1_pow : (1 + ulp1) ^ 7 ≤ 1 + 8 * ulp1 := by unfold ulp1; norm_num

/-- The error of a read. -/
theorem getValue_fl (t : WTree) (hf : FloatTree t) (v B : ℚ) (hB : 0 ≤ B) (n : Nat) (hn : n ≤ 1000) (h : ∀ q : List (Fin (2 ^ 3)), q.length ≤ n → |t.getValue v q| ≤ B)
    (q : List (Fin (2 ^ 3))) (hq : q.length ≤ n) : |Rounded.getValue fl t v q - t.getValue v q| ≤ 57 * q.length * B * ulp1 := by
  have key : ∀ (q : List (Fin (2 ^ 3))) (t : WTree) (v vF : ℚ) (n k : Nat), FloatTree t → k + n ≤ 1000 → q.length ≤ n → (∀ q : List (Fin (2 ^ 3)), q.length ≤ n → |t.getValue v q| ≤ B) →
      |vF - v| ≤ 57 * k * B * ulp1 → |Rounded.getValue fl t vF q - t.getValue v q| ≤ 57 * (k + q.length : Nat) * B * ulp1 := by
    intro q
    induction q with
    | nil => intro t v vF n k _ _ _ _ hv; rw [WTree.getValue_nil_path]; simpa [Rounded.getValue] using hv
    | cons c q ih =>
      intro t v vF n k hf hk hq hb hv
      rw [List.length_cons] at hq
      by_cases ht : t = .nil
      · subst ht
        simp only [Rounded.getValue, NTree.isNil, if_true, WTree.getValue_nil]
        refine hv.trans ?_
        apply mul_le_mul_of_nonneg_right _ ulp1_pos.le
        apply mul_le_mul_of_nonneg_right _ hB
        push_cast
        have : (0 : ℚ) ≤ ((c :: q).length : ℚ) := by positivity
        linarith
      · have hni : t.isNil = false := by cases t <;> simp_all [NTree.isNil]
        rw [WTree.getValue_cons _ ht, Rounded.getValue, hni]
        simp only [Bool.false_eq_true, if_false]
        have hstep := bwd_single_fl v vF (WTree.details t) hf.root B _ hv (by have := hb [] (by simp); rwa [WTree.getValue_nil_path] at this)
          (fun i => by have := coefficients_bound hB hb [] (by simp; omega) i; rwa [descend_nil'] at this) c
        have hk1 : (k : ℚ) ≤ 1000 := by exact_mod_cast (by omega : k ≤ 1000)
        have hbound : (1 + ulp1) ^ 7 * (57 * k * B * ulp1 + 56 * B * ulp1) ≤ 57 * ((k + 1 : Nat) : ℚ) * B * ulp1 := by
          have h0 : 0 ≤ B * ulp1 := mul_nonneg hB ulp1_pos.le
          have e : 57 * (k : ℚ) * B * ulp1 + 56 * B * ulp1 = (57 * k + 56) * (B * ulp1) := by ring
          rw [e, ← mul_assoc]
          have e2 : 57 * ((k + 1 : Nat) : ℚ) * B * ulp1 = (57 * k + 57) * (B * ulp1) := by push_cast; ring
          rw [e2]
          apply mul_le_mul_of_nonneg_right _ h0
          have hk0 : (0 : ℚ) ≤ k := by positivity
          have h1 : (1 + ulp1) ^ 7 * (57 * (k : ℚ) + 56) ≤ (1 + 8 * ulp1) * (57 * k + 56) := mul_le_mul_of_nonneg_right ulp1_pow (by positivity)
          refine h1.trans ?_
          have h2 : 8 * ulp1 * (57 * (k : ℚ) + 56) ≤ 8 * ulp1 * (57 * 1000 + 56) := mul_le_mul_of_nonneg_left (by linarith) (by have := ulp1_pos; positivity)
          have h3 : 8 * ulp1 * (57 * 1000 + 56) ≤ 1 := by unfold ulp1; norm_num
          linarith
        have := ih (t.child c) (Haar.backwardSingleChild 3 ⟨v, WTree.details t⟩ c) _ (n - 1) (k + 1) (hf.child c) (by omega) (by omega)
          (fun q' hq' => by have := hb (c :: q') (by simp; omega); rwa [WTree.getValue_cons _ ht] at this) (hstep.trans hbound)
        rw [List.length_cons]
        rw [show k + (q.length + 1) = k + 1 + q.length by omega]
        exact this
  have := key q t v v n 0 hf (by omega) hq h (by simp)
  simpa using this

end Wavemap
