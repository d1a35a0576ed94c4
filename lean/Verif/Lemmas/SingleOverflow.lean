import Verif.Lemmas.SingleThreshold
import Verif.Lemmas.SingleDense
/-!
# Helper lemmas about the size of numbers in single precision

`r` rounds to single precision, except for numbers that are too large for it.
-/
namespace Wavemap
open Haar NTree

theorem fl_bound {x B : ℚ} (hB : IsFloat B) (h : |x| ≤ B) : |fl x| ≤ B := by
  obtain ⟨h1, h2⟩ := abs_le.1 h
  have h1 := fl_mono h1
  have h2 := fl_mono h2
  rw [fl_of_isFloat hB.neg] at h1
  rw [fl_of_isFloat hB] at h2
  exact abs_le.2 ⟨h1, h2⟩

theorem isFloat_grid {k : Nat} (hk : k < 2 ^ 24) (e : Nat) : IsFloat ((k : ℚ) * 2 ^ e) :=
  ⟨k, e, by rw [abs_of_nonneg (by omega)]; exact_mod_cast hk, by rw [zpow_natCast]; norm_cast⟩

theorem isFloat_two_pow (e : Nat) : IsFloat ((2 : ℚ) ^ e) := by
  have := isFloat_grid (k := 1) (by norm_num) e
  simpa using this

namespace Rounded

/-- A bound on all details of a tree. -/
def BndTree (D : ℚ) (t : WTree) : Prop := ∀ q i, |WTree.details (t.descend q) i| ≤ D

variable {r : ℚ → ℚ} {D : ℚ}

theorem BndTree.child {t : WTree} (h : BndTree D t) (c : Fin (2 ^ 3)) : BndTree D (t.child c) := fun q i => by
  have := h (c :: q) i; rwa [descend_cons] at this

theorem BndTree.root {t : WTree} (h : BndTree D t) (i) : |WTree.details t i| ≤ D := by
  have := h [] i; rwa [descend_nil'] at this

theorem BndTree.mono {t : WTree} {E : ℚ} (h : BndTree D t) (hE : D ≤ E) : BndTree E t := fun q i => (h q i).trans hE

theorem bndTree_of {t : WTree} (h : ∀ i, |WTree.details t i| ≤ D) (hc : ∀ c, BndTree D (t.child c)) : BndTree D t := by
  intro q i
  cases q with
  | nil => rw [descend_nil']; exact h i
  | cons c q => rw [descend_cons]; exact hc c q i

theorem bndTree_nil (hD : 0 ≤ D) : BndTree D .nil := fun q i => by
  rw [nil_descend]
  show |(0 : ℚ)| ≤ D
  rwa [abs_zero]

theorem bndTree_zero (hD : 0 ≤ D) : BndTree D (.leaf zeroDetails) :=
  bndTree_of (fun i => by show |(0 : ℚ)| ≤ D; rwa [abs_zero]) fun c => by rw [child_leaf]; exact bndTree_nil hD

theorem BndTree.getOrAllocate {t : WTree} (hD : 0 ≤ D) (h : BndTree D t) (c : Fin (2 ^ 3)) : BndTree D (t.getOrAllocateChild c zeroDetails) := by
  have h1 := h.child c
  unfold NTree.getOrAllocateChild
  cases hc : t.child c with
  | nil => exact bndTree_zero hD
  | leaf a => rw [hc] at h1; exact h1
  | node a ch => rw [hc] at h1; exact h1

/-- `r` rounds the number to single precision. -/
theorem exact_of (hr : ∀ x, |x| < 2 ^ 128 - 2 ^ 103 → r x = fl x) {x B : ℚ} (hB : IsFloat B) (hM : B ≤ 2 ^ 127) (h : |x| ≤ B) : r x = fl x ∧ |fl x| ≤ B := by
  refine ⟨hr x ?_, fl_bound hB h⟩
  have : (2 : ℚ) ^ 127 < 2 ^ 128 - 2 ^ 103 := by norm_num
  linarith

variable (hr : ∀ x, |x| < 2 ^ 128 - 2 ^ 103 → r x = fl x)
include hr

theorem forwardSingleChild_bound {u B : ℚ} (hB : IsFloat B) (hM : B ≤ 2 ^ 127) (hu : |u| ≤ B) (c : Fin (2 ^ 3)) :
    forwardSingleChild r u c = forwardSingleChild fl u c ∧ |(forwardSingleChild fl u c).scale| ≤ B ∧ ∀ i, |(forwardSingleChild fl u c).details i| ≤ B := by
  have key : ∀ p : Fin (2 ^ 3), |(if parity (andNot p.val c.val) then -u else u) / (exp2 (3 - popcount p.val) : Nat)| ≤ B := by
    intro p
    rw [abs_div]
    have h1 : |if parity (andNot p.val c.val) then -u else u| ≤ B := by
      split
      · rwa [abs_neg]
      · exact hu
    have h2 : (1 : ℚ) ≤ |((exp2 (3 - popcount p.val) : Nat) : ℚ)| := by
      rw [exp2_cast, abs_of_pos (by positivity)]
      exact one_le_pow₀ (by norm_num)
    exact (div_le_self (abs_nonneg _) h2).trans h1
  refine ⟨?_, fl_bound hB (key _), fun i => fl_bound hB (key _)⟩
  unfold forwardSingleChild
  congr 1
  funext p
  exact (exact_of hr hB hM (key p)).1

/-- The size up to which coefficients are read. -/
def readBound : ℚ := 2 ^ 116

omit hr in
theorem grid_le {x : Nat} (hx : x ≤ 1000) : IsFloat ((x : ℚ) * readBound) ∧ (x : ℚ) * readBound ≤ 2 ^ 127 := by
  unfold readBound
  refine ⟨isFloat_grid (by omega) _, ?_⟩
  have : (x : ℚ) ≤ 1000 := by exact_mod_cast hx
  have h : (0 : ℚ) < 2 ^ 116 := by positivity
  calc (x : ℚ) * 2 ^ 116 ≤ 1000 * 2 ^ 116 := mul_le_mul_of_nonneg_right this h.le
    _ ≤ 2 ^ 127 := by norm_num

theorem backwardSingleChild_bound {v : ℚ} {a : Details 3} {x : Nat} (hx : x + 7 ≤ 1000) (hv : |v| ≤ x * readBound) (ha : ∀ i, |a i| ≤ readBound) (c : Fin (2 ^ 3)) :
    backwardSingleChild r ⟨v, a⟩ c = backwardSingleChild fl ⟨v, a⟩ c ∧ |backwardSingleChild fl ⟨v, a⟩ c| ≤ ((x + 7 : Nat) : ℚ) * readBound := by
  unfold backwardSingleChild
  have key : ∀ (l : List (Fin (2 ^ 3 - 1))) (v : ℚ) (x : Nat), x + l.length ≤ 1000 → |v| ≤ x * readBound →
      l.foldl (fun scale i =>
        let parentIdx := i.val + 1
        let contribution := r (a i / (exp2 (popcount parentIdx) : Nat))
        r (scale + (if parity (andNot parentIdx c.val) then -contribution else contribution))) v =
      l.foldl (fun scale i =>
        let parentIdx := i.val + 1
        let contribution := fl (a i / (exp2 (popcount parentIdx) : Nat))
        fl (scale + (if parity (andNot parentIdx c.val) then -contribution else contribution))) v ∧
      |l.foldl (fun scale i =>
        let parentIdx := i.val + 1
        let contribution := fl (a i / (exp2 (popcount parentIdx) : Nat))
        fl (scale + (if parity (andNot parentIdx c.val) then -contribution else contribution))) v| ≤ ((x + l.length : Nat) : ℚ) * readBound := by
    intro l
    induction l with
    | nil => intro v x _ hv; exact ⟨rfl, by simpa using hv⟩
    | cons i l ih =>
      intro v x hx hv
      rw [List.length_cons] at hx
      simp only [List.foldl_cons, List.length_cons]
      have h1 : |a i / (exp2 (popcount (i.val + 1)) : Nat)| ≤ ((1 : Nat) : ℚ) * readBound := by
        rw [abs_div, Nat.cast_one, one_mul]
        have h2 : (1 : ℚ) ≤ |((exp2 (popcount (i.val + 1)) : Nat) : ℚ)| := by
          rw [exp2_cast, abs_of_pos (by positivity)]
          exact one_le_pow₀ (by norm_num)
        exact (div_le_self (abs_nonneg _) h2).trans (ha i)
      obtain ⟨g1, g2⟩ := grid_le (x := 1) (by norm_num)
      obtain ⟨e1, e2⟩ := exact_of hr g1 g2 h1
      rw [e1]
      generalize fl (a i / (exp2 (popcount (i.val + 1)) : Nat)) = y at e2
      have h3 : |v + (if parity (andNot (i.val + 1) c.val) then -y else y)| ≤ ((x + 1 : Nat) : ℚ) * readBound := by
        have : |if parity (andNot (i.val + 1) c.val) then -y else y| ≤ ((1 : Nat) : ℚ) * readBound := by
          split
          · rwa [abs_neg]
          · exact e2
        refine (abs_add_le _ _).trans ((add_le_add hv this).trans (le_of_eq ?_))
        push_cast; ring
      obtain ⟨g3, g4⟩ := grid_le (x := x + 1) (by omega)
      obtain ⟨e3, e4⟩ := exact_of hr g3 g4 h3
      rw [e3]
      have := ih _ (x + 1) (by omega) e4
      rw [show x + 1 + l.length = x + (l.length + 1) by omega] at this
      exact this
  exact key _ v x (by rw [List.length_finRange]; exact hx) hv

theorem getValue_bound {t : WTree} (ht : BndTree readBound t) {v : ℚ} {x : Nat} (p : List (Fin (2 ^ 3))) (hx : x + 7 * p.length ≤ 1000) (hv : |v| ≤ x * readBound) :
    getValue r t v p = getValue fl t v p ∧ |getValue fl t v p| ≤ ((x + 7 * p.length : Nat) : ℚ) * readBound := by
  induction p generalizing t v x with
  | nil => exact ⟨by simp only [getValue], by simpa [getValue] using hv⟩
  | cons c p ih =>
    rw [List.length_cons] at hx ⊢
    simp only [getValue]
    have hR : (0 : ℚ) ≤ readBound := by unfold readBound; positivity
    split
    · refine ⟨rfl, hv.trans (mul_le_mul_of_nonneg_right ?_ hR)⟩
      exact_mod_cast (by omega : x ≤ x + 7 * (p.length + 1))
    · obtain ⟨e1, e2⟩ := backwardSingleChild_bound hr (by omega) hv ht.root c
      rw [e1]
      have := ih (ht.child c) (x := x + 7) (by omega) e2
      rwa [show x + 7 + 7 * p.length = x + 7 * (p.length + 1) by omega] at this

/-- Adding a number of up to `2 ^ 92` to a tree with coefficients up to `n * 2 ^ 92`. -/
theorem addPath_bound {n : Nat} (hn : n + 1 < 2 ^ 24) (p : List (Fin (2 ^ 3))) {t : WTree} (hnil : t ≠ .nil) (ht : BndTree (n * 2 ^ 92) t) {u : ℚ} (hu : |u| ≤ 2 ^ 92) :
    addPath r t p u = addPath fl t p u ∧ |(addPath fl t p u).2| ≤ 2 ^ 92 ∧ BndTree (((n + 1 : Nat) : ℚ) * 2 ^ 92) (addPath fl t p u).1 ∧ (addPath fl t p u).1 ≠ .nil := by
  have hG : (0 : ℚ) < 2 ^ 92 := by positivity
  have hup : (n : ℚ) * 2 ^ 92 ≤ ((n + 1 : Nat) : ℚ) * 2 ^ 92 := mul_le_mul_of_nonneg_right (by exact_mod_cast Nat.le_succ n) hG.le
  have hn0 : (0 : ℚ) ≤ (n : ℚ) * 2 ^ 92 := by positivity
  have hgrid : IsFloat (((n + 1 : Nat) : ℚ) * 2 ^ 92) := isFloat_grid hn _
  have hle : ((n + 1 : Nat) : ℚ) * 2 ^ 92 ≤ 2 ^ 127 := by
    have h1 : ((n + 1 : Nat) : ℚ) ≤ 2 ^ 24 := by exact_mod_cast hn.le
    calc ((n + 1 : Nat) : ℚ) * 2 ^ 92 ≤ 2 ^ 24 * 2 ^ 92 := mul_le_mul_of_nonneg_right h1 hG.le
      _ ≤ 2 ^ 127 := by norm_num
  -- the new details of a node
  have key : ∀ (t : WTree) (x : ℚ) (c : Fin (2 ^ 3)), BndTree (n * 2 ^ 92) t → |x| ≤ 2 ^ 92 → forwardSingleChild r x c = forwardSingleChild fl x c ∧
      |(forwardSingleChild fl x c).scale| ≤ 2 ^ 92 ∧ (fun i => r (WTree.details t i + (forwardSingleChild fl x c).details i)) =
        (fun i => fl (WTree.details t i + (forwardSingleChild fl x c).details i)) ∧
      ∀ i, |fl (WTree.details t i + (forwardSingleChild fl x c).details i)| ≤ ((n + 1 : Nat) : ℚ) * 2 ^ 92 := by
    intro t x c ht hx
    obtain ⟨e1, e2, e3⟩ := forwardSingleChild_bound hr (isFloat_two_pow 92) (by norm_num) hx c
    have hs : ∀ i, |WTree.details t i + (forwardSingleChild fl x c).details i| ≤ ((n + 1 : Nat) : ℚ) * 2 ^ 92 := by
      intro i
      refine (abs_add_le _ _).trans ((add_le_add (ht.root i) (e3 i)).trans (le_of_eq ?_))
      push_cast; ring
    exact ⟨e1, e2, funext fun i => (exact_of hr hgrid hle (hs i)).1, fun i => (exact_of hr hgrid hle (hs i)).2⟩
  -- one node with new details
  have node : ∀ (s : WTree) (a : Details 3), s ≠ .nil → (∀ i, |a i| ≤ ((n + 1 : Nat) : ℚ) * 2 ^ 92) → (∀ c, BndTree (((n + 1 : Nat) : ℚ) * 2 ^ 92) (s.child c)) →
      BndTree (((n + 1 : Nat) : ℚ) * 2 ^ 92) (s.withDetails a) ∧ s.withDetails a ≠ .nil := by
    intro s a hs ha hc
    unfold WTree.withDetails
    refine ⟨bndTree_of (fun i => ?_) (fun c => ?_), WTree.setData_ne_nil _ hs _⟩
    · rw [WTree.details_setData _ hs]; exact ha i
    · rw [WTree.setData_child]; exact hc c
  induction p generalizing t with
  | nil => simp only [addPath]; exact ⟨trivial, hu, ht.mono hup, hnil⟩
  | cons c p ih =>
    cases p with
    | nil =>
      simp only [addPath]
      obtain ⟨e1, e2, e3, e4⟩ := key t u c ht hu
      rw [e1, e3]
      obtain ⟨n1, n2⟩ := node t _ hnil e4 fun c' => (ht.child c').mono hup
      exact ⟨rfl, e2, n1, n2⟩
    | cons c' p =>
      simp only [addPath]
      obtain ⟨i1, i2, i3, i4⟩ := ih (t := t.getOrAllocateChild c zeroDetails) (by
        unfold NTree.getOrAllocateChild
        cases hc : t.child c <;> simp) (ht.getOrAllocate hn0 c)
      rw [i1]
      generalize addPath fl (t.getOrAllocateChild c zeroDetails) (c' :: p) u = s at i2 i3 i4
      obtain ⟨e1, e2, e3, e4⟩ := key t s.2 c ht i2
      rw [e1, e3]
      obtain ⟨n1, n2⟩ := node (t.setChild c s.1) _ (by cases t <;> simp_all [NTree.setChild]) e4 fun c'' => by
        rw [setChild_child _ hnil]
        split
        · exact i3
        · exact (ht.child c'').mono hup
      exact ⟨rfl, e2, n1, n2⟩

/-! ## The lifted transforms -/

omit hr in
theorem shiftRight_pass : ∀ (k : Fin 3) (i : Fin (2 ^ 3)), if i.val.testBit k then i.val >>> k.val ≠ 0 ∧ ((partner k i).val >>> k.val = 0 ↔ i.val >>> (k.val + 1) = 0)
    else ((i.val >>> k.val = 0 ↔ i.val >>> (k.val + 1) = 0) ∧ (partner k i).val >>> k.val ≠ 0) := by decide

/-- A bound for an entry when the axes below `k` have been transformed back. -/
def bwdBound (x c k : Nat) (i : Fin (2 ^ 3)) : Nat := (if i.val >>> k = 0 then x else 0) + c

theorem bwdPass_bound {k : Nat} (hk : k < 3) {a : Coeffs 3} {x c : Nat} (hx : x + 3 * c ≤ 1000) (ha : ∀ i, |a i| ≤ (bwdBound x c k i : ℚ) * readBound) :
    bwdPass r k a = bwdPass fl k a ∧ ∀ i, |bwdPass fl k a i| ≤ (bwdBound x (3 * c) (k + 1) i : ℚ) * readBound := by
  have hR : (0 : ℚ) ≤ readBound := by unfold readBound; positivity
  have key : ∀ i, bwdPass r k a i = bwdPass fl k a i ∧ |bwdPass fl k a i| ≤ (bwdBound x (3 * c) (k + 1) i : ℚ) * readBound := by
    intro i
    rw [bwdPass_eq _ _ hk, bwdPass_eq _ _ hk]
    have hw := shiftRight_pass ⟨k, hk⟩ i
    dsimp only at hw
    -- a pair
    have pair : ∀ (s t : ℚ) (y : Nat), y ≤ x → |s| ≤ ((y + c : Nat) : ℚ) * readBound → |t| ≤ ((c : Nat) : ℚ) * readBound →
        (r (s - r (1 / 2 * t)) = fl (s - fl (1 / 2 * t)) ∧ |fl (s - fl (1 / 2 * t))| ≤ ((y + 2 * c : Nat) : ℚ) * readBound) ∧
        (r (t + r (s - r (1 / 2 * t))) = fl (t + fl (s - fl (1 / 2 * t))) ∧ |fl (t + fl (s - fl (1 / 2 * t)))| ≤ ((y + 3 * c : Nat) : ℚ) * readBound) := by
      intro s t y hy hs ht
      have h1 : |1 / 2 * t| ≤ ((c : Nat) : ℚ) * readBound := by
        rw [abs_mul, abs_of_pos (by norm_num : (0 : ℚ) < 1 / 2)]
        have := abs_nonneg t
        linarith
      obtain ⟨g1, g2⟩ := grid_le (x := c) (by omega)
      obtain ⟨e1, e2⟩ := exact_of hr g1 g2 h1
      rw [e1]
      generalize fl (1 / 2 * t) = t' at e2
      have h2 : |s - t'| ≤ ((y + 2 * c : Nat) : ℚ) * readBound := by
        refine (abs_sub _ _).trans ((add_le_add hs e2).trans (le_of_eq ?_))
        push_cast; ring
      obtain ⟨g3, g4⟩ := grid_le (x := y + 2 * c) (by omega)
      obtain ⟨e3, e4⟩ := exact_of hr g3 g4 h2
      rw [e3]
      generalize fl (s - t') = s' at e4
      refine ⟨⟨rfl, e4⟩, ?_⟩
      have h3 : |t + s'| ≤ ((y + 3 * c : Nat) : ℚ) * readBound := by
        refine (abs_add_le _ _).trans ((add_le_add ht e4).trans (le_of_eq ?_))
        push_cast; ring
      obtain ⟨g5, g6⟩ := grid_le (x := y + 3 * c) (by omega)
      exact exact_of hr g5 g6 h3
    have a1 := ha i
    have a2 := ha (partner k i)
    unfold bwdBound at a1 a2 ⊢
    by_cases ht : i.val.testBit k
    · rw [if_pos ht] at hw
      rw [if_pos ht, if_pos ht]
      rw [if_neg hw.1, Nat.zero_add] at a1
      simp only [hw.2] at a2
      exact (pair _ _ _ (by split <;> omega) a2 a1).2
    · rw [if_neg ht] at hw
      rw [if_neg ht, if_neg ht]
      rw [if_neg hw.2, Nat.zero_add] at a2
      simp only [hw.1] at a1
      obtain ⟨e1, e2⟩ := (pair _ _ _ (by split <;> omega) a1 a2).1
      refine ⟨e1, e2.trans (mul_le_mul_of_nonneg_right ?_ hR)⟩
      exact_mod_cast (by omega : (if i.val >>> (k + 1) = 0 then x else 0) + 2 * c ≤ (if i.val >>> (k + 1) = 0 then x else 0) + 3 * c)
  exact ⟨funext fun i => (key i).1, fun i => (key i).2⟩

theorem backward_bound {p : Parent 3} {x : Nat} (hx : x + 28 ≤ 1000) (hs : |p.scale| ≤ x * readBound) (hd : ∀ i, |p.details i| ≤ readBound) :
    backward r p = backward fl p ∧ ∀ c, |backward fl p c| ≤ ((x + 27 : Nat) : ℚ) * readBound := by
  have hR : (0 : ℚ) ≤ readBound := by unfold readBound; positivity
  have h0 : ∀ i, |p.get i| ≤ (bwdBound x 1 0 i : ℚ) * readBound := by
    intro i
    unfold Parent.get bwdBound
    split
    · next h =>
      rw [if_pos (by rw [h]; rfl)]
      refine hs.trans (mul_le_mul_of_nonneg_right ?_ hR)
      exact_mod_cast Nat.le_succ x
    · next h =>
      rw [if_neg (by simpa using h)]
      simpa using hd _
  obtain ⟨e1, b1⟩ := bwdPass_bound hr (k := 0) (by decide) (by omega) h0
  obtain ⟨e2, b2⟩ := bwdPass_bound hr (k := 1) (by decide) (by omega) b1
  obtain ⟨e3, b3⟩ := bwdPass_bound hr (k := 2) (by decide) (by omega) b2
  rw [backward_passes, backward_passes, e1, e2, e3]
  refine ⟨rfl, fun c => ?_⟩
  have := b3 c
  unfold bwdBound at this
  have hc : c.val >>> (2 + 1) = 0 := (by decide : ∀ c : Fin (2 ^ 3), c.val >>> (2 + 1) = 0) c
  rw [if_pos hc] at this
  exact this

theorem fwdPass_bound {k : Nat} (hk : k < 3) {a : Coeffs 3} {e : Nat} (he : e + 1 ≤ 127) (ha : ∀ i, |a i| ≤ 2 ^ e) :
    fwdPass r k a = fwdPass fl k a ∧ ∀ i, |fwdPass fl k a i| ≤ 2 ^ (e + 1) := by
  have hle : ∀ n : Nat, n ≤ 127 → (2 : ℚ) ^ n ≤ 2 ^ 127 := fun n hn => pow_le_pow_right₀ (by norm_num) hn
  have key : ∀ i, fwdPass r k a i = fwdPass fl k a i ∧ |fwdPass fl k a i| ≤ 2 ^ (e + 1) := by
    intro i
    rw [fwdPass_eq _ _ hk, fwdPass_eq _ _ hk]
    have diff : ∀ s t : ℚ, |s| ≤ 2 ^ e → |t| ≤ 2 ^ e → r (t - s) = fl (t - s) ∧ |fl (t - s)| ≤ 2 ^ (e + 1) := by
      intro s t hs ht
      refine exact_of hr (isFloat_two_pow _) (hle _ he) ((abs_sub _ _).trans ((add_le_add ht hs).trans (le_of_eq ?_)))
      ring
    split
    · exact diff _ _ (ha _) (ha _)
    · obtain ⟨e1, e2⟩ := diff _ _ (ha i) (ha (partner k i))
      rw [e1]
      generalize fl (a (partner k i) - a i) = t' at e2
      have h1 : |1 / 2 * t'| ≤ 2 ^ e := by
        rw [abs_mul, abs_of_pos (by norm_num : (0 : ℚ) < 1 / 2)]
        rw [pow_succ] at e2
        linarith
      obtain ⟨e3, e4⟩ := exact_of hr (isFloat_two_pow _) (hle e (by omega)) h1
      rw [e3]
      refine exact_of hr (isFloat_two_pow _) (hle _ he) ((abs_add_le _ _).trans ((add_le_add (ha i) e4).trans (le_of_eq ?_)))
      ring
  exact ⟨funext fun i => (key i).1, fun i => (key i).2⟩

theorem forward_pow_bound {x : Coeffs 3} {e : Nat} (he : e + 3 ≤ 127) (hx : ∀ c, |x c| ≤ 2 ^ e) :
    forward r x = forward fl x ∧ |(forward fl x).scale| ≤ 2 ^ (e + 3) ∧ ∀ i, |(forward fl x).details i| ≤ 2 ^ (e + 3) := by
  obtain ⟨e1, b1⟩ := fwdPass_bound hr (k := 0) (by decide) (by omega) hx
  obtain ⟨e2, b2⟩ := fwdPass_bound hr (k := 1) (by decide) (by omega) b1
  obtain ⟨e3, b3⟩ := fwdPass_bound hr (k := 2) (by decide) (by omega) b2
  rw [forward_passes, forward_passes, e1, e2, e3]
  exact ⟨rfl, b3 _, fun i => b3 _⟩

/-- Thresholding: the result does not depend on how large the coefficients were. -/
theorem recThreshold_bound {lo hi : ℚ} (hL : ∀ s, |clamp lo hi s| ≤ 2 ^ 32) {n : Nat} (hn : n ≤ 20) {t : WTree} (hd : WTree.DepthLe n t) (ht : BndTree readBound t)
    {s : ℚ} {x : Nat} (hx : x + 27 * n ≤ 900) (hs : |s| ≤ x * readBound) :
    recThreshold r lo hi t s = recThreshold fl lo hi t s ∧ |(recThreshold fl lo hi t s).2| ≤ 2 ^ (32 + 3 * n) ∧ BndTree (2 ^ (32 + 3 * n)) (recThreshold fl lo hi t s).1 := by
  have hmono : ∀ n : Nat, (2 : ℚ) ^ 32 ≤ 2 ^ (32 + 3 * n) := fun n => pow_le_pow_right₀ (by norm_num) (by omega)
  have hpos : ∀ n : Nat, (0 : ℚ) ≤ 2 ^ (32 + 3 * n) := fun n => by positivity
  induction t generalizing n s x with
  | nil => simp only [recThreshold]; exact ⟨trivial, (hL s).trans (hmono n), bndTree_nil (hpos n)⟩
  | leaf a =>
    obtain ⟨n, rfl⟩ : ∃ k, n = k + 1 := by
      cases n with
      | zero => cases hd
      | succ k => exact ⟨k, rfl⟩
    simp only [recThreshold]
    obtain ⟨e1, -⟩ := backward_bound hr (p := ⟨s, a⟩) (by omega) hs ht.root
    rw [e1]
    obtain ⟨e2, b2, b3⟩ := forward_pow_bound hr (e := 32 + 3 * n) (by omega) fun c => (hL (backward fl ⟨s, a⟩ c)).trans (hmono n)
    rw [e2]
    exact ⟨rfl, b2, bndTree_of b3 fun c => by rw [child_leaf]; exact bndTree_nil (hpos _)⟩
  | node a ch ih =>
    obtain ⟨n, rfl⟩ : ∃ k, n = k + 1 := by
      cases n with
      | zero => cases hd
      | succ k => exact ⟨k, rfl⟩
    simp only [recThreshold]
    obtain ⟨e1, b1⟩ := backward_bound hr (p := ⟨s, a⟩) (by omega) hs ht.root
    rw [e1]
    have hc : ∀ c, _ := fun c => ih c (n := n) (by omega) (hd c) (ht.child c) (x := x + 27) (by omega) (b1 c)
    have e4 : (fun c => (recThreshold r lo hi (ch c) (backward fl ⟨s, a⟩ c)).2) = fun c => (recThreshold fl lo hi (ch c) (backward fl ⟨s, a⟩ c)).2 :=
      funext fun c => by rw [(hc c).1]
    have e5 : (fun c => (recThreshold r lo hi (ch c) (backward fl ⟨s, a⟩ c)).1) = fun c => (recThreshold fl lo hi (ch c) (backward fl ⟨s, a⟩ c)).1 :=
      funext fun c => by rw [(hc c).1]
    rw [e4, e5]
    obtain ⟨e2, b2, b3⟩ := forward_pow_bound hr (e := 32 + 3 * n) (by omega) fun c => (hc c).2.1
    rw [e2]
    refine ⟨rfl, b2, bndTree_of b3 fun c => ?_⟩
    exact (hc c).2.2.mono (pow_le_pow_right₀ (by norm_num) (by omega))

/-! ## Pruning -/

theorem keepChild_bound (t : WTree) : keepChild r t = keepChild fl t := by
  unfold keepChild
  rw [hr (1 / 1000) (by rw [abs_of_pos (by norm_num)]; norm_num)]

theorem recPrune_bound (t : WTree) : recPrune r t = recPrune fl t := by
  induction t with
  | nil => simp only [recPrune]
  | leaf a => simp only [recPrune]
  | node a ch ih => simp only [recPrune, keepChild_bound hr, ih]

omit hr in
theorem recPrune_bnd (hD : 0 ≤ D) {t : WTree} (ht : BndTree D t) : BndTree D (recPrune fl t) := by
  intro q
  induction q generalizing t with
  | nil => intro i; rw [descend_nil', recPrune_details]; exact ht.root i
  | cons c q ih =>
    intro i
    rw [descend_cons, recPrune_child]
    split
    · exact ih (ht.child c) i
    · exact bndTree_nil hD q i

end Rounded
end Wavemap
