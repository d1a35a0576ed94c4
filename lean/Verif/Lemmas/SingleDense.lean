import Verif.Lemmas.SingleThreshold
/-! # Helper lemmas about thresholding and pruning the wavelet octree in single precision -/
namespace Wavemap
open Haar NTree

namespace Rounded

theorem recThresholdDelta_id (lo hi : ℚ) (t : WTree) (s : ℚ) : recThresholdDelta id lo hi t s = WTree.recThresholdDelta lo hi t s := by
  induction t generalizing s with
  | nil => rfl
  | leaf a => simp only [recThresholdDelta, WTree.recThresholdDelta, forward_id, backward_id, id]
  | node a ch ih => simp only [recThresholdDelta, WTree.recThresholdDelta, forward_id, backward_id, ih, id]

theorem keepChild_id (t : WTree) : keepChild id t = WTree.keepChild t := rfl

theorem recPruneDelta_id (lo hi : ℚ) (t : WTree) (s : ℚ) : recPruneDelta id lo hi t s = WTree.recPruneDelta lo hi t s := by
  induction t generalizing s with
  | nil => rfl
  | leaf a => simp only [recPruneDelta, WTree.recPruneDelta, forward_id, backward_id, id]
  | node a ch ih => simp only [recPruneDelta, WTree.recPruneDelta, forward_id, backward_id, ih, id, keepChild_id]

theorem forward_bound (x : Coeffs 3) (B : ℚ) (hB : 0 ≤ B) (hx : ∀ c, |x c| ≤ B) (i : Fin (2 ^ 3 - 1)) : |(Haar.forward 3 x).details i| ≤ detailWeight i * B := by
  have hw0 : ∀ i, fwdWeight 0 i = 1 := by decide
  have p1 := fwd_pass_close (k := 0) (by decide) (a := x) (aE := x) (h := 0) (X := B) (le_refl _) hB (fun i => by simp) (fun i => by rw [hw0]; simpa using hx i)
  have hu := ulp1_pos
  have p2 := fwd_pass_close (k := 1) (by decide) (h := 0 + 9 / 4 * (B + 0) * ulp1) (X := B) (by positivity) hB (fun i => (p1 i).2.1) (fun i => (p1 i).2.2)
  have p3 := fwd_pass_close (k := 2) (by decide) (h := (0 + 9 / 4 * (B + 0) * ulp1) + 9 / 4 * (B + (0 + 9 / 4 * (B + 0) * ulp1)) * ulp1) (X := B) (by positivity) hB
    (fun i => (p2 i).2.1) (fun i => (p2 i).2.2)
  rw [← forward_id, forward_passes]
  have hw : ∀ i, fwdWeight 3 i = 2 ^ popcount i.val := by decide
  have := (p3 ⟨i.val + 1, by omega⟩).2.2
  rw [hw] at this
  unfold detailWeight; rw [exp2_cast]
  push_cast at this
  exact this

/-- The excesses of the children. -/
def excess (lo hi : ℚ) (t : WTree) (s : ℚ) : Coeffs 3 := fun c => (recThresholdDelta fl lo hi (t.child c) (backward fl ⟨s, WTree.details t⟩ c)).2

theorem recThresholdDelta_scale (lo hi : ℚ) (t : WTree) (ht : t ≠ .nil) (s : ℚ) : (recThresholdDelta fl lo hi t s).2 = (forward fl (excess lo hi t s)).scale := by
  cases t with
  | nil => exact absurd rfl ht
  | leaf a => rfl
  | node a ch => rfl

theorem recThresholdDelta_details (lo hi : ℚ) (t : WTree) (ht : t ≠ .nil) (s : ℚ) :
    WTree.details (recThresholdDelta fl lo hi t s).1 = fun i => fl (WTree.details t i - (forward fl (excess lo hi t s)).details i) := by
  cases t with
  | nil => exact absurd rfl ht
  | leaf a => rfl
  | node a ch => rfl

theorem recThresholdDelta_child (lo hi : ℚ) (t : WTree) (s : ℚ) (c : Fin (2 ^ 3)) :
    (recThresholdDelta fl lo hi t s).1.child c = (recThresholdDelta fl lo hi (t.child c) (backward fl ⟨s, WTree.details t⟩ c)).1 := by
  cases t with
  | nil => simp only [recThresholdDelta, child_nil]
  | leaf a => simp only [recThresholdDelta, child_leaf]
  | node a ch => simp only [recThresholdDelta, WTree.details, child_node]

theorem recThresholdDelta_isNil (lo hi : ℚ) (t : WTree) (s : ℚ) : (recThresholdDelta fl lo hi t s).1 = .nil ↔ t = .nil := by
  cases t <;> simp [recThresholdDelta]

theorem recThresholdDelta_depth {h : Nat} {t : WTree} (ht : WTree.DepthLe h t) (lo hi s : ℚ) : WTree.DepthLe h (recThresholdDelta fl lo hi t s).1 := by
  induction h generalizing t s with
  | zero =>
    have ht' : t = .nil := ht
    subst ht'; rfl
  | succ h ih => intro c; rw [recThresholdDelta_child]; exact ih (ht c) _

theorem sub_details_err {d p pE w L e : ℚ} (hw : 0 ≤ w) (hL : 0 ≤ L) (he : e ≤ 1 / 1000 * L) (hd : |d| ≤ w * L) (hp : |p - pE| ≤ w * e) (hpE : |pE| ≤ w * (2 * L)) :
    |fl (d - p) - (d - pE)| ≤ w * (e + 4 * (L * ulp1)) := by
  have hu := ulp1_pos
  have h1 : |(d - p) - (d - pE)| ≤ w * e := by
    rw [show (d - p) - (d - pE) = -(p - pE) by ring, abs_neg]; exact hp
  have h2 : |d - pE| ≤ w * (3 * L) := by
    rw [abs_le] at hd hpE ⊢; constructor <;> linarith [hd.1, hd.2, hpE.1, hpE.2]
  refine (fl_near h1 h2).trans ?_
  have h3 : w * e ≤ w * (1 / 1000 * L) := mul_le_mul_of_nonneg_left he hw
  have h4 : (w * (3 * L) + w * e) * ulp1 ≤ (w * (4 * L)) * ulp1 := by
    apply mul_le_mul_of_nonneg_right _ hu.le
    nlinarith [mul_nonneg hw hL]
  linarith

theorem excess_nil {lo hi s L : ℚ} (hlo : |lo| ≤ L) (hhi : |hi| ≤ L) (hs : |s| ≤ L) : |(s - fl (s - clamp lo hi s)) - clamp lo hi s| ≤ 2 * (L * ulp1) := by
  have h1 := fl_err' (s - clamp lo hi s)
  have h2 := clamp_abs hlo hhi hs
  have h3 : |s - clamp lo hi s| ≤ 2 * L := by
    rw [abs_le] at hs h2 ⊢; constructor <;> linarith [hs.1, hs.2, h2.1, h2.2]
  have h4 := mul_le_mul_of_nonneg_right h3 ulp1_pos.le
  rw [show (s - fl (s - clamp lo hi s)) - clamp lo hi s = -(fl (s - clamp lo hi s) - (s - clamp lo hi s)) by ring, abs_neg]
  linarith

/-- The error of thresholding. -/
theorem recThresholdDelta_close {lo hi L : ℚ} (hlh : lo ≤ hi) (hL : 0 ≤ L) {n : Nat} {t : WTree} {s : ℚ} (hd : WTree.DepthLe n t) (hf : FloatTree t) (hs : IsFloat s)
    (hlo : |lo| ≤ L - (n + 1) * (266 * (L * ulp1))) (hhi : |hi| ≤ L - (n + 1) * (266 * (L * ulp1)))
    (hv : ∀ q : List (Fin (2 ^ 3)), q.length ≤ n → |t.getValue s q| ≤ L - (n + 1) * (266 * (L * ulp1))) :
    FloatTree (recThresholdDelta fl lo hi t s).1 ∧ IsFloat (recThresholdDelta fl lo hi t s).2 ∧
      ∀ q : List (Fin (2 ^ 3)), q.length = n →
        |(recThresholdDelta fl lo hi t s).1.getValue (s - (recThresholdDelta fl lo hi t s).2) q - clamp lo hi (t.getValue s q)| ≤ (n + 1) * (266 * (L * ulp1)) := by
  have hβ : 0 ≤ L * ulp1 := mul_nonneg hL ulp1_pos.le
  have hnil : ∀ (n : Nat) (s : ℚ), |lo| ≤ L → |hi| ≤ L → |s| ≤ L → FloatTree (recThresholdDelta fl lo hi .nil s).1 ∧ IsFloat (recThresholdDelta fl lo hi .nil s).2 ∧
      ∀ q : List (Fin (2 ^ 3)), q.length = n →
        |(recThresholdDelta fl lo hi .nil s).1.getValue (s - (recThresholdDelta fl lo hi .nil s).2) q - clamp lo hi (WTree.getValue .nil s q)|
          ≤ (n + 1) * (266 * (L * ulp1)) := by
    intro n s hlo hhi hs
    refine ⟨fun q i => ?_, isFloat_fl _, fun q _ => ?_⟩
    · simp only [recThresholdDelta, nil_descend]; exact isFloat_zero
    · simp only [recThresholdDelta, WTree.getValue_nil]
      refine (excess_nil hlo hhi hs).trans ?_
      have : 0 ≤ (n : ℚ) * (L * ulp1) := by positivity
      nlinarith
  have hself : ∀ (n : Nat) (t : WTree) (s : ℚ), (∀ q : List (Fin (2 ^ 3)), q.length ≤ n → |t.getValue s q| ≤ L - (n + 1) * (266 * (L * ulp1))) → |s| ≤ L := by
    intro n t s hv
    have := hv [] (by simp)
    rw [WTree.getValue_nil_path] at this
    have h0 : 0 ≤ ((n : ℚ) + 1) * (266 * (L * ulp1)) := by positivity
    linarith
  have hrange : ∀ n : Nat, 0 ≤ ((n : ℚ) + 1) * (266 * (L * ulp1)) := fun n => by positivity
  induction n generalizing t s with
  | zero =>
    have ht : t = .nil := hd
    subst ht
    exact hnil 0 s (by have := hrange 0; linarith) (by have := hrange 0; linarith) (hself 0 _ _ hv)
  | succ n ih =>
    by_cases ht : t = .nil
    · subst ht; exact hnil (n + 1) s (by have := hrange (n + 1); linarith) (by have := hrange (n + 1); linarith) (hself _ _ _ hv)
    have hsB : |s| ≤ L := hself _ _ _ hv
    push_cast at hlo hhi hv
    set β := L * ulp1 with hβd
    have hnβ : 0 ≤ (n : ℚ) * (266 * β) := by positivity
    have hB : ∀ q : List (Fin (2 ^ 3)), q.length ≤ n + 1 → |t.getValue s q| ≤ L := fun q hq => (hv q hq).trans (by linarith)
    have hdet : ∀ i, |WTree.details t i| ≤ detailWeight i * L := by
      intro i
      have := coefficients_bound hL hB [] (by simp) i
      rwa [descend_nil'] at this
    -- the values of the children
    have hbk := backward_close ⟨s, WTree.details t⟩ L hL hs hf.root hsB hdet
    set x := backward fl ⟨s, WTree.details t⟩ with hx
    have hxE : ∀ c, |x c - Haar.backwardSingleChild 3 ⟨s, WTree.details t⟩ c| ≤ 63 * β := by
      intro c
      have h1 := (hbk c).2
      rwa [bwd3_single] at h1
    have hchild : ∀ c (q : List (Fin (2 ^ 3))), |WTree.getValue (t.child c) (x c) q - t.getValue s (c :: q)| ≤ 63 * β := by
      intro c q
      rw [WTree.getValue_cons _ ht]
      have h2 : WTree.getValue (t.child c) (x c) q = WTree.getValue (t.child c) (Haar.backwardSingleChild 3 ⟨s, WTree.details t⟩ c) q
          + (x c - Haar.backwardSingleChild 3 ⟨s, WTree.details t⟩ c) := by
        rw [← WTree.getValue_shift]; congr 1; ring
      rw [h2, add_sub_cancel_left]
      exact hxE c
    have hcv : ∀ c (q : List (Fin (2 ^ 3))), q.length ≤ n → |WTree.getValue (t.child c) (x c) q| ≤ L - (n + 1) * (266 * β) := by
      intro c q hq
      have h1 := hchild c q
      have h2 := hv (c :: q) (by simp; omega)
      rw [abs_le] at h1 h2 ⊢
      constructor <;> linarith [h1.1, h1.2, h2.1, h2.2]
    have hrec : ∀ c, FloatTree (recThresholdDelta fl lo hi (t.child c) (x c)).1 ∧ _ ∧ _ := fun c =>
      ih (hd c) (hf.child c) (hbk c).1 (by linarith) (by linarith) (hcv c)
    -- the excesses of the children
    have hy : ∀ c, |excess lo hi t s c| ≤ 2 * L := by
      intro c
      have := paths_bound (n := n) (t := (recThresholdDelta fl lo hi (t.child c) (x c)).1) (s := x c - (recThresholdDelta fl lo hi (t.child c) (x c)).2) (A := L)
        (fun q hq => by
          have h1 := (hrec c).2.2 q hq
          have h2 := clamp_abs (lo := lo) (hi := hi) (by linarith : |lo| ≤ L - (n + 1) * (266 * β)) (by linarith) (hcv c q hq.le)
          rw [abs_le] at h1 h2 ⊢
          constructor <;> linarith [h1.1, h1.2, h2.1, h2.2]) [] (by simp)
      rw [WTree.getValue_nil_path] at this
      change |x c - excess lo hi t s c| ≤ L at this
      have h0 := hcv c [] (by simp)
      rw [WTree.getValue_nil_path] at h0
      rw [abs_le] at this h0 ⊢
      constructor <;> linarith [this.1, this.2, h0.1, h0.2]
    obtain ⟨⟨hfs, -⟩, hes, hed⟩ := forward_close (excess lo hi t s) (2 * L) (by linarith) hy
    have hfb := forward_bound (excess lo hi t s) (2 * L) (by linarith) hy
    have e14 : 7 * (2 * L * ulp1) = 14 * β := by rw [hβd]; ring
    rw [e14] at hes
    simp only [e14] at hed
    refine ⟨fun q i => ?_, ?_, fun q hq => ?_⟩
    · cases q with
      | nil => rw [descend_nil', recThresholdDelta_details _ _ _ ht]; exact isFloat_fl _
      | cons c q => rw [descend_cons, recThresholdDelta_child]; exact (hrec c).1 q i
    · rw [recThresholdDelta_scale _ _ _ ht]; exact hfs
    · cases q with
      | nil => simp at hq
      | cons c q =>
        have hq' : q.length = n := by simpa using hq
        rw [WTree.getValue_cons _ (fun e => ht ((recThresholdDelta_isNil lo hi t s).1 e)), recThresholdDelta_scale _ _ _ ht, recThresholdDelta_details _ _ _ ht,
          recThresholdDelta_child]
        have hdd : ∀ i, |fl (WTree.details t i - (forward fl (excess lo hi t s)).details i) - (WTree.details t i - (Haar.forward 3 (excess lo hi t s)).details i)|
            ≤ detailWeight i * (18 * β) := by
          intro i
          have hw : 0 ≤ detailWeight i := by unfold detailWeight; positivity
          have h14 : 14 * β ≤ 1 / 1000 * L := by
            have := mul_le_mul_of_nonneg_left ulp1_le hL
            rw [hβd]; linarith
          refine (sub_details_err hw hL h14 (hdet i) (hed i) (hfb i)).trans (le_of_eq ?_)
          rw [← hβd]; ring
        have hss : |(s - (forward fl (excess lo hi t s)).scale) - (s - (Haar.forward 3 (excess lo hi t s)).scale)| ≤ 14 * β := by
          rw [show (s - (forward fl (excess lo hi t s)).scale) - (s - (Haar.forward 3 (excess lo hi t s)).scale)
            = -((forward fl (excess lo hi t s)).scale - (Haar.forward 3 (excess lo hi t s)).scale) by ring, abs_neg]
          exact hes
        have h1 := bwd_perturb _ _ _ _ (18 * β) (14 * β) hss hdd c
        have hlin : Haar.backwardSingleChild 3 ⟨s - (Haar.forward 3 (excess lo hi t s)).scale, fun i => WTree.details t i - (Haar.forward 3 (excess lo hi t s)).details i⟩ c
            = Haar.backwardSingleChild 3 ⟨s, WTree.details t⟩ c - excess lo hi t s c := by
          have e : (⟨s - (Haar.forward 3 (excess lo hi t s)).scale, fun i => WTree.details t i - (Haar.forward 3 (excess lo hi t s)).details i⟩ : Parent 3)
              = Parent.add ⟨s, WTree.details t⟩ (Parent.smul (-1) (Haar.forward 3 (excess lo hi t s))) := by
            simp only [Parent.add, Parent.smul]
            congr 1
            · ring
            · funext i; ring
          have e2 : Haar.backwardSingleChild 3 (Haar.forward 3 (excess lo hi t s)) c = excess lo hi t s c := bwd3_fwd _ c
          rw [e, bwd_single_add, bwd_single_smul, e2]
          ring
        rw [hlin] at h1
        have h2 := (hrec c).2.2 q hq'
        have h3 := (clamp_nonexpansive hlh (WTree.getValue (t.child c) (x c) q) (t.getValue s (c :: q))).trans (hchild c q)
        have h5 := hxE c
        generalize Haar.backwardSingleChild 3 ⟨s - (forward fl (excess lo hi t s)).scale,
          fun i => fl (WTree.details t i - (forward fl (excess lo hi t s)).details i)⟩ c = y at h1 ⊢
        change |(recThresholdDelta fl lo hi (t.child c) (x c)).1.getValue (x c - excess lo hi t s c) q - _| ≤ _ at h2
        generalize Haar.backwardSingleChild 3 ⟨s, WTree.details t⟩ c = z at h1 h5
        generalize excess lo hi t s c = d at h1 h2
        have h4 : (recThresholdDelta fl lo hi (t.child c) (x c)).1.getValue y q
            = (recThresholdDelta fl lo hi (t.child c) (x c)).1.getValue (x c - d) q + (y - (x c - d)) := by
          rw [← WTree.getValue_shift]; congr 1; ring
        rw [← hx, h4]
        push_cast
        rw [abs_le] at h1 h2 h3 h5 ⊢
        constructor <;> linarith [h1.1, h1.2, h2.1, h2.2, h3.1, h3.2, h5.1, h5.2]

/-- Pruning in the same pass as thresholding is pruning afterwards. -/
theorem recPruneDelta_eq (lo hi : ℚ) (t : WTree) (s : ℚ) :
    recPruneDelta fl lo hi t s = (recPrune fl (recThresholdDelta fl lo hi t s).1, (recThresholdDelta fl lo hi t s).2) := by
  induction t generalizing s with
  | nil => rfl
  | leaf a => rfl
  | node a ch ih =>
    simp only [recPruneDelta, recThresholdDelta, recPrune, ih]
    split <;> rfl

theorem recPrune_details (t : WTree) : WTree.details (recPrune fl t) = WTree.details t := by
  cases t with
  | nil => rfl
  | leaf a => rfl
  | node a ch => simp only [recPrune]; split <;> rfl

theorem recPrune_isNil (t : WTree) : recPrune fl t = .nil ↔ t = .nil := by
  cases t with
  | nil => simp [recPrune]
  | leaf a => simp [recPrune]
  | node a ch => simp only [recPrune]; split <;> simp

theorem recPrune_child (t : WTree) (c : Fin (2 ^ 3)) :
    (recPrune fl t).child c = if keepChild fl (recPrune fl (t.child c)) then recPrune fl (t.child c) else .nil := by
  cases t with
  | nil => simp only [recPrune, child_nil, ite_self]
  | leaf a => simp only [recPrune, child_leaf, ite_self]
  | node a ch =>
    simp only [recPrune, child_node]
    split
    · rfl
    · next h =>
      rw [child_leaf]
      symm
      apply if_neg
      intro hk
      apply h
      rw [List.any_eq_true]
      exact ⟨c, List.mem_finRange c, hk⟩

theorem recPrune_depth {h : Nat} {t : WTree} (ht : WTree.DepthLe h t) : WTree.DepthLe h (recPrune fl t) := by
  induction h generalizing t with
  | zero => exact (recPrune_isNil t).2 ht
  | succ h ih =>
    intro c; rw [recPrune_child]
    split
    · exact ih (ht c)
    · exact WTree.DepthLe.nil h

theorem floatTree_nil : FloatTree .nil := fun q i => by rw [nil_descend]; exact isFloat_zero

theorem recPrune_float {t : WTree} (ht : FloatTree t) : FloatTree (recPrune fl t) := by
  intro q
  induction q generalizing t with
  | nil => intro i; rw [descend_nil', recPrune_details]; exact ht.root i
  | cons c q ih =>
    intro i
    rw [descend_cons, recPrune_child]
    split
    · exact ih (ht.child c) i
    · exact floatTree_nil q i

theorem fl_prune : fl (1 / 1000) ≤ 1 / 1000 + 1 / 1000 * ulp1 := by
  have := fl_err' (1 / 1000)
  rw [abs_le] at this
  rw [abs_of_pos (by norm_num : (0 : ℚ) < 1 / 1000)] at this
  linarith [this.2]

theorem details_small {t : WTree} (hn : t ≠ .nil) (h : keepChild fl t = false) : t.hasChildrenArray = false ∧ ∀ i, |WTree.details t i| ≤ 1001 / 1000000 := by
  unfold keepChild at h
  have hnil : t.isNil = false := by cases t <;> simp_all [NTree.isNil]
  rw [hnil] at h
  simp only [Bool.not_false, Bool.true_and, Bool.or_eq_false_iff] at h
  refine ⟨h.1, fun i => ?_⟩
  have h2 := h.2
  unfold WTree.nonzeroData at h2
  rw [List.any_eq_false] at h2
  have := h2 i (List.mem_finRange i)
  rw [decide_eq_true_eq, not_lt] at this
  have h3 := fl_prune
  have h4 := ulp1_le
  linarith

/-- Pruning moves no value by more than `12/5 · 10⁻³` per level. -/
theorem recPrune_error (t : WTree) (s : ℚ) (q : List (Fin (2 ^ 3))) : |WTree.getValue (recPrune fl t) s q - WTree.getValue t s q| ≤ 12 / 5000 * ((q.length - 1 : Nat) : ℚ) := by
  induction q generalizing t s with
  | nil => rw [WTree.getValue_nil_path, WTree.getValue_nil_path]; simp
  | cons c q ih =>
    by_cases ht : t = .nil
    · subst ht
      simp only [recPrune, sub_self, abs_zero]
      positivity
    · rw [WTree.getValue_cons _ ht, WTree.getValue_cons _ (fun e => ht ((recPrune_isNil t).1 e)), recPrune_details, recPrune_child]
      generalize Haar.backwardSingleChild 3 ⟨s, WTree.details t⟩ c = v
      have hlen : ((List.length (c :: q) - 1 : Nat) : ℚ) = (q.length : ℚ) := by simp
      rw [hlen]
      have hmono : (12 / 5000 : ℚ) * ((q.length - 1 : Nat) : ℚ) ≤ 12 / 5000 * (q.length : ℚ) := by
        have : ((q.length - 1 : Nat) : ℚ) ≤ (q.length : ℚ) := by exact_mod_cast Nat.sub_le _ _
        linarith
      by_cases hk : keepChild fl (recPrune fl (t.child c)) = true
      · rw [if_pos hk]
        exact le_trans (ih _ v) hmono
      · rw [if_neg hk, WTree.getValue_nil]
        by_cases hc : t.child c = .nil
        · rw [hc, WTree.getValue_nil, sub_self, abs_zero]; positivity
        · cases q with
          | nil => rw [WTree.getValue_nil_path]; simp
          | cons c' q =>
            have hsm := details_small (fun e => hc ((recPrune_isNil _).1 e)) (by simpa using hk)
            have h1 := ih (t.child c) v
            have h2 : WTree.getValue (recPrune fl (t.child c)) v (c' :: q)
                = Haar.backwardSingleChild 3 ⟨v, WTree.details (recPrune fl (t.child c))⟩ c' := by
              rw [WTree.getValue_cons _ (fun e => hc ((recPrune_isNil _).1 e))]
              have : (recPrune fl (t.child c)).child c' = .nil := by
                cases hh : recPrune fl (t.child c) with
                | nil => rfl
                | leaf a => rfl
                | node a ch => rw [hh] at hsm; exact absurd hsm.1 (by simp [hasChildrenArray])
              rw [this, WTree.getValue_nil]
            have h3 := WTree.bwd3_small v (1001 / 1000000) _ hsm.2 c'
            rw [← h2] at h3
            have hl : ((List.length (c' :: q) - 1 : Nat) : ℚ) = (q.length : ℚ) := by simp
            rw [hl] at h1
            have hl2 : ((c' :: q).length : ℚ) = (q.length : ℚ) + 1 := by simp
            rw [hl2]
            rw [abs_sub_comm] at h3
            have := abs_sub_le v (WTree.getValue (recPrune fl (t.child c)) v (c' :: q)) (WTree.getValue (t.child c) v (c' :: q))
            linarith

end Rounded

theorem Close.thresholdDelta {n : Nat} (hn : n ≤ 20) {t tE : WTree} {s sE ε A lo hi : ℚ} (h : Close n t s tE sE ε) (hd : WTree.DepthLe n t) (hdE : WTree.DepthLe n tE)
    (hlh : lo ≤ hi) (hlo : |lo| ≤ A) (hhi : |hi| ≤ A) (hb : ∀ q : List (Fin (2 ^ 3)), q.length ≤ n → |tE.getValue sE q| ≤ A) :
    Close n (Rounded.recThresholdDelta fl lo hi t s).1 (fl (s - (Rounded.recThresholdDelta fl lo hi t s).2)) (WTree.recThreshold lo hi tE sE).1
      (WTree.recThreshold lo hi tE sE).2 (ε + 268 * (n + 1) * (A + ε) * ulp1) := by
  have hε : 0 ≤ ε := (abs_nonneg _).trans (h.values [] (by simp))
  have hA : 0 ≤ A := (abs_nonneg _).trans hlo
  have hn' : (n : ℚ) ≤ 20 := by exact_mod_cast hn
  have hn0 : (0 : ℚ) ≤ n := by positivity
  have hu := ulp1_pos
  set L := 268 / 267 * (A + ε) with hLd
  have hL : 0 ≤ L := by positivity
  have hslack : A + ε ≤ L - (n + 1) * (266 * (L * ulp1)) := by
    have h1 : ((n : ℚ) + 1) * (L * ulp1) ≤ 21 * (L * (1 / 10000000)) :=
      mul_le_mul (by linarith) (mul_le_mul_of_nonneg_left (by unfold ulp1; norm_num) hL) (by positivity) (by norm_num)
    have h2 : A + ε = 267 / 268 * L := by rw [hLd]; ring
    rw [h2]
    linarith
  have hF : ∀ q : List (Fin (2 ^ 3)), q.length ≤ n → |t.getValue s q| ≤ A + ε := by
    intro q hq
    have h1 := h.values q hq
    have h2 := hb q hq
    rw [abs_le] at h1 h2 ⊢
    constructor <;> linarith [h1.1, h1.2, h2.1, h2.2]
  obtain ⟨hfl, hsc, hv⟩ := Rounded.recThresholdDelta_close (L := L) hlh hL hd h.floats h.scale (by linarith) (by linarith)
    (fun q hq => (hF q hq).trans hslack)
  generalize ht' : (Rounded.recThresholdDelta fl lo hi t s).1 = t' at hfl hv ⊢
  have htn : t' ≠ .nil := fun e => h.ne ((Rounded.recThresholdDelta_isNil lo hi t s).1 (by rw [ht', e]))
  generalize (Rounded.recThresholdDelta fl lo hi t s).2 = δ at hsc hv ⊢
  refine ⟨htn, fun e => h.neE ((WTree.recThreshold_isNil lo hi tE sE).1 e), hfl, isFloat_fl _, ?_⟩
  -- the new scale
  have hroot : |s - δ| ≤ L := by
    have := Rounded.paths_bound (n := n) (t := t') (s := s - δ) (A := L) (fun q hq => by
      have h1 := hv q hq
      have h2 := Rounded.clamp_abs (lo := lo) (hi := hi) (by linarith : |lo| ≤ A + ε) (by linarith) (hF q hq.le)
      rw [abs_le] at h1 h2 ⊢
      constructor <;> linarith [h1.1, h1.2, h2.1, h2.2]) [] (by simp)
    rwa [WTree.getValue_nil_path] at this
  have hr := (fl_err' (s - δ)).trans (mul_le_mul_of_nonneg_right hroot hu.le)
  apply Rounded.paths_close
  intro q hq
  rw [WTree.recThreshold_getValue _ _ _ _ _ (hdE.descend q hq)]
  have h1 := hv q hq
  have h2 := (Rounded.clamp_nonexpansive hlh (t.getValue s q) (tE.getValue sE q)).trans (h.values q (by omega))
  have h4 : t'.getValue (fl (s - δ)) q = t'.getValue (s - δ) q + (fl (s - δ) - (s - δ)) := by
    rw [← WTree.getValue_shift]; congr 1; ring
  rw [h4]
  have e : 268 * ((n : ℚ) + 1) * (A + ε) * ulp1 = ((n : ℚ) + 1) * (266 * (L * ulp1)) + ((n : ℚ) + 1) * (L * ulp1) := by
    have h2 : A + ε = 267 / 268 * L := by rw [hLd]; ring
    rw [h2]; ring
  have h5 : L * ulp1 ≤ ((n : ℚ) + 1) * (L * ulp1) := by nlinarith [mul_nonneg hn0 (mul_nonneg hL hu.le)]
  rw [e]
  rw [abs_le] at h1 h2 hr ⊢
  constructor <;> linarith [h1.1, h1.2, h2.1, h2.2, hr.1, hr.2]

theorem Close.prune_sharp {n : Nat} (hn : 0 < n) {t tE : WTree} {s sE ε : ℚ} (h : Close n t s tE sE ε) :
    Close n (Rounded.recPrune fl t) s tE sE (ε + 12 / 5000 * (n - 1)) := by
  refine ⟨fun e => h.ne ((Rounded.recPrune_isNil t).1 e), h.neE, Rounded.recPrune_float h.floats, h.scale, fun q hq => ?_⟩
  have h1 := h.values q hq
  have h2 := Rounded.recPrune_error t s q
  have h3 : ((q.length - 1 : Nat) : ℚ) ≤ n - 1 := by
    have : q.length - 1 + 1 ≤ n := by omega
    have : ((q.length - 1 : Nat) : ℚ) + 1 ≤ n := by exact_mod_cast this
    linarith
  rw [abs_le] at h1 h2 ⊢
  constructor <;> linarith [h1.1, h1.2, h2.1, h2.2]

theorem Close.prune {n : Nat} {t tE : WTree} {s sE ε : ℚ} (h : Close n t s tE sE ε) :
    Close n (Rounded.recPrune fl t) s tE sE (ε + 12 / 5000 * n) := by
  refine ⟨fun e => h.ne ((Rounded.recPrune_isNil t).1 e), h.neE, Rounded.recPrune_float h.floats, h.scale, fun q hq => ?_⟩
  have h1 := h.values q hq
  have h2 := Rounded.recPrune_error t s q
  have h3 : ((q.length - 1 : Nat) : ℚ) ≤ n := by exact_mod_cast (Nat.sub_le _ _).trans hq
  rw [abs_le] at h1 h2 ⊢
  constructor <;> linarith [h1.1, h1.2, h2.1, h2.2]

end Wavemap
