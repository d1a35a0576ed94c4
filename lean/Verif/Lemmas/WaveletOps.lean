import Verif.Lemmas.Wavelet
import Mathlib.Tactic.Linarith
import Mathlib.Tactic.NormNum
import Mathlib.Algebra.Order.Ring.Abs
import Mathlib.Algebra.Order.Field.Basic
import Mathlib.Tactic.Positivity
import Mathlib.Tactic.GCongr
/-! # Thresholding, pruning and depth of wavelet trees -/
namespace Wavemap
open Haar NTree

theorem clamp_mem {lo hi : ℚ} (h : lo ≤ hi) (v : ℚ) : lo ≤ clamp lo hi v ∧ clamp lo hi v ≤ hi := by
  unfold clamp; split
  · exact ⟨le_refl _, h⟩
  · split
    · exact ⟨h, le_refl _⟩
    · constructor <;> linarith

theorem clamp_id {lo hi v : ℚ} (h1 : lo ≤ v) (h2 : v ≤ hi) : clamp lo hi v = v := by
  unfold clamp; rw [if_neg (by linarith), if_neg (by linarith)]

theorem clamp_clamp {lo hi : ℚ} (h : lo ≤ hi) (v : ℚ) : clamp lo hi (clamp lo hi v) = clamp lo hi v :=
  clamp_id (clamp_mem h v).1 (clamp_mem h v).2

/-- `backward` is a left inverse of `forward`, child by child. -/
theorem bwd3_fwd (x : Coeffs 3) (c : Fin (2 ^ 3)) : backwardSingleChild 3 ⟨(forward 3 x).scale, (forward 3 x).details⟩ c = x c := by
  rw [← bwd3_single]
  have : (⟨(forward 3 x).scale, (forward 3 x).details⟩ : Parent 3) = forward 3 x := rfl
  rw [this, C10_backward_forward 3 h3]

namespace WTree

/-- The tree has nodes on at most `h` levels. A tree at height `h` (cells at height 0) must satisfy this, since cells
have no node of their own. -/
def DepthLe : Nat → WTree → Prop
  | 0, t => t = .nil
  | h + 1, t => ∀ c : Fin (2 ^ 3), DepthLe h (t.child c)

theorem DepthLe.nil (h : Nat) : DepthLe h (.nil : WTree) := by
  induction h with
  | zero => rfl
  | succ h ih => intro c; exact ih

theorem DepthLe.leaf (h : Nat) (a : Details 3) : DepthLe (h + 1) (.leaf a : WTree) := fun _ => DepthLe.nil h

theorem DepthLe.mono {h : Nat} {t : WTree} (ht : DepthLe h t) : DepthLe (h + 1) t := by
  induction h generalizing t with
  | zero =>
    have ht' : t = .nil := ht
    subst ht'; exact DepthLe.nil 1
  | succ h ih => intro c; exact ih (ht c)

theorem DepthLe.descend {h : Nat} {t : WTree} (ht : DepthLe h t) (q : List (Fin (2 ^ 3))) (hq : q.length = h) :
    t.descend q = .nil := by
  induction h generalizing t q with
  | zero =>
    have ht' : t = .nil := ht
    subst ht'; rw [nil_descend]
  | succ h ih =>
    cases q with
    | nil => simp at hq
    | cons c q =>
      rw [descend_cons]
      exact ih (ht c) q (by rw [List.length_cons] at hq; omega)

theorem DepthLe.setData {h : Nat} {t : WTree} (ht : DepthLe (h + 1) t) (a : Details 3) : DepthLe (h + 1) (t.setData a) := by
  intro c; rw [setData_child]; exact ht c

theorem DepthLe.setChild {h : Nat} {t : WTree} (hn : t ≠ .nil) (ht : DepthLe (h + 1) t) (c : Fin (2 ^ 3)) {t' : WTree} (ht' : DepthLe h t') :
    DepthLe (h + 1) (t.setChild c t') := by
  intro c'
  rw [setChild_child _ hn]
  split
  · exact ht'
  · exact ht c'

theorem DepthLe.getOrAllocate {h : Nat} {t : WTree} (ht : DepthLe (h + 2) t) (c : Fin (2 ^ 3)) (a : Details 3) :
    DepthLe (h + 1) (t.getOrAllocateChild c a) := by
  unfold NTree.getOrAllocateChild
  have := ht c
  split
  · exact DepthLe.leaf _ _
  · exact this

theorem DepthLe.addPath {h : Nat} {t : WTree} (hn : t ≠ .nil) (ht : DepthLe h t) (p : List (Fin (2 ^ 3))) (hp : p.length ≤ h) (u : ℚ) :
    DepthLe h (addPath t p u).1 := by
  induction p generalizing t h with
  | nil => exact ht
  | cons c p ih =>
    obtain ⟨h, rfl⟩ : ∃ k, h = k + 1 := ⟨h - 1, by rw [List.length_cons] at hp; omega⟩
    cases p with
    | nil => exact ht.setData _
    | cons c' p =>
      obtain ⟨h, rfl⟩ : ∃ k, h = k + 1 := ⟨h - 1, by simp only [List.length_cons] at hp; omega⟩
      simp only [WTree.addPath, withDetails]
      apply DepthLe.setData
      apply DepthLe.setChild hn ht
      exact ih (getOrAllocateChild_ne_nil _ _ _) (ht.getOrAllocate c _) (by simp only [List.length_cons] at hp ⊢; omega)

/-! ### Thresholding -/

/-- Values of the children after thresholding them. -/
def thrVals (lo hi : ℚ) (t : WTree) (s : ℚ) : Coeffs 3 :=
  fun c => (recThreshold lo hi (t.child c) (backwardSingleChild 3 ⟨s, details t⟩ c)).2

theorem recThreshold_scale (lo hi : ℚ) (t : WTree) (ht : t ≠ .nil) (s : ℚ) :
    (recThreshold lo hi t s).2 = (forward 3 (thrVals lo hi t s)).scale := by
  cases t with
  | nil => exact absurd rfl ht
  | leaf a => simp only [recThreshold, bwd3_single]; rfl
  | node a ch => simp only [recThreshold, bwd3_single]; rfl

theorem recThreshold_details (lo hi : ℚ) (t : WTree) (ht : t ≠ .nil) (s : ℚ) :
    details (recThreshold lo hi t s).1 = (forward 3 (thrVals lo hi t s)).details := by
  cases t with
  | nil => exact absurd rfl ht
  | leaf a => simp only [recThreshold, bwd3_single]; rfl
  | node a ch => simp only [recThreshold, bwd3_single]; rfl

theorem recThreshold_child (lo hi : ℚ) (t : WTree) (s : ℚ) (c : Fin (2 ^ 3)) :
    (recThreshold lo hi t s).1.child c = (recThreshold lo hi (t.child c) (backwardSingleChild 3 ⟨s, details t⟩ c)).1 := by
  cases t with
  | nil => simp only [recThreshold, child_nil]
  | leaf a => simp only [recThreshold, child_leaf]
  | node a ch => simp only [recThreshold, bwd3_single, details, child_node]

theorem recThreshold_isNil (lo hi : ℚ) (t : WTree) (s : ℚ) : (recThreshold lo hi t s).1 = .nil ↔ t = .nil := by
  cases t <;> simp [recThreshold]

/-- Thresholding clamps the value below every point where the tree ends. -/
theorem recThreshold_getValue (lo hi : ℚ) (t : WTree) (s : ℚ) (q : List (Fin (2 ^ 3))) (hq : t.descend q = .nil) :
    getValue (recThreshold lo hi t s).1 (recThreshold lo hi t s).2 q = clamp lo hi (getValue t s q) := by
  induction q generalizing t s with
  | nil =>
    have ht : t = .nil := by rw [← descend_nil' t]; exact hq
    subst ht; rfl
  | cons c q ih =>
    by_cases ht : t = .nil
    · subst ht; simp only [recThreshold, getValue_nil]
    · rw [getValue_cons _ ht, getValue_cons _ (fun e => ht ((recThreshold_isNil lo hi t s).1 e)), recThreshold_scale _ _ _ ht,
        recThreshold_details _ _ _ ht, bwd3_fwd, recThreshold_child]
      exact ih _ _ (by rw [← descend_cons]; exact hq)

/-- Thresholding does not change which nodes exist. -/
theorem recThreshold_descend (lo hi : ℚ) (t : WTree) (s : ℚ) (q : List (Fin (2 ^ 3))) :
    (recThreshold lo hi t s).1.descend q = .nil ↔ t.descend q = .nil := by
  induction q generalizing t s with
  | nil => rw [descend_nil', descend_nil', recThreshold_isNil]
  | cons c q ih => rw [descend_cons, descend_cons, recThreshold_child, ih]

theorem recThreshold_hasChildrenArray (lo hi : ℚ) (t : WTree) (s : ℚ) :
    (recThreshold lo hi t s).1.hasChildrenArray = t.hasChildrenArray := by
  cases t <;> rfl

theorem DepthLe.recThreshold {h : Nat} {t : WTree} (ht : DepthLe h t) (lo hi s : ℚ) : DepthLe h (recThreshold lo hi t s).1 := by
  induction h generalizing t s with
  | zero =>
    have ht' : t = .nil := ht
    subst ht'; rfl
  | succ h ih => intro c; rw [recThreshold_child]; exact ih (ht c) _

/-- A tree whose end values are all within bounds is left as it is. -/
theorem recThreshold_of_bounded (lo hi : ℚ) (t : WTree) (s : ℚ)
    (hb : ∀ q, t.descend q = .nil → lo ≤ getValue t s q ∧ getValue t s q ≤ hi) :
    recThreshold lo hi t s = (t, s) := by
  induction t generalizing s with
  | nil =>
    have := hb [] (by rw [descend_nil'])
    simp only [getValue_nil] at this
    simp only [recThreshold, clamp_id this.1 this.2]
  | leaf a =>
    have hv : (fun c => clamp lo hi (backward 3 ⟨s, a⟩ c)) = backward 3 ⟨s, a⟩ := by
      funext c
      have := hb [c] (by rw [descend_cons, child_leaf, nil_descend])
      rw [getValue_cons _ (by simp), getValue_nil_path, ← bwd3_single] at this
      exact clamp_id this.1 this.2
    simp only [recThreshold, hv, C10_forward_backward 3 h3]
  | node a ch ih =>
    have hv : ∀ c, Wavemap.WTree.recThreshold lo hi (ch c) (backward 3 ⟨s, a⟩ c) = (ch c, backward 3 ⟨s, a⟩ c) := by
      intro c
      apply ih
      intro q hq
      have := hb (c :: q) (by rw [descend_cons, child_node]; exact hq)
      rw [getValue_cons _ (by simp), ← bwd3_single, child_node] at this
      exact this
    simp only [recThreshold, hv, C10_forward_backward 3 h3]

/-- Thresholding twice is the same as once. -/
theorem recThreshold_idem {lo hi : ℚ} (h : lo ≤ hi) (t : WTree) (s : ℚ) :
    recThreshold lo hi (recThreshold lo hi t s).1 (recThreshold lo hi t s).2 = recThreshold lo hi t s := by
  apply recThreshold_of_bounded
  intro q hq
  rw [recThreshold_descend] at hq
  rw [recThreshold_getValue _ _ _ _ _ hq]
  exact clamp_mem h _

/-! ### The excess-based variants of `WaveletOctree` -/

theorem fwd3_sub (s : ℚ) (a : Details 3) (x : Coeffs 3) :
    forward 3 (fun c => backward 3 ⟨s, a⟩ c - x c)
      = ⟨s - (forward 3 x).scale, fun i => a i - (forward 3 x).details i⟩ := by
  have h : backward 3 (⟨s - (forward 3 x).scale, fun i => a i - (forward 3 x).details i⟩ : Parent 3)
      = fun c => backward 3 ⟨s, a⟩ c - x c := by
    funext c
    have e : (⟨s - (forward 3 x).scale, fun i => a i - (forward 3 x).details i⟩ : Parent 3)
        = Parent.add ⟨s, a⟩ (Parent.smul (-1) (forward 3 x)) := by
      simp only [Parent.add, Parent.smul]
      congr 1
      · ring
      · funext i; ring
    rw [bwd3_single, bwd3_single, e, bwd_single_add, bwd_single_smul, ← bwd3_single (forward 3 x), C10_backward_forward 3 h3]
    ring
  rw [← h, C10_forward_backward 3 h3]

/-- `WaveletOctree`'s thresholding computes the same tree, and the excess of the scale. -/
theorem recThresholdDelta_eq (lo hi : ℚ) (t : WTree) (s : ℚ) :
    recThresholdDelta lo hi t s = ((recThreshold lo hi t s).1, s - (recThreshold lo hi t s).2) := by
  induction t generalizing s with
  | nil => rfl
  | leaf a =>
    simp only [recThresholdDelta, recThreshold]
    rw [fwd3_sub s a (fun c => clamp lo hi (backward 3 ⟨s, a⟩ c))]
    congr 2
    funext i; simp
  | node a ch ih =>
    simp only [recThresholdDelta, recThreshold, ih]
    rw [fwd3_sub s a (fun c => (recThreshold lo hi (ch c) (backward 3 ⟨s, a⟩ c)).2)]
    congr 2
    funext i; simp

/-- `WaveletOctree`'s pruning is thresholding followed by the hashed block's pruning. -/
theorem recPruneDelta_eq (lo hi : ℚ) (t : WTree) (s : ℚ) :
    recPruneDelta lo hi t s = (recPrune (recThreshold lo hi t s).1, s - (recThreshold lo hi t s).2) := by
  induction t generalizing s with
  | nil => rfl
  | leaf a =>
    have := recThresholdDelta_eq lo hi (.leaf a) s
    simp only [recPruneDelta, recPrune, recThreshold]
    simp only [recThresholdDelta, recThreshold] at this
    rw [this]
  | node a ch ih =>
    simp only [recPruneDelta, recThreshold, recPrune, ih]
    rw [fwd3_sub s a (fun c => (recThreshold lo hi (ch c) (backward 3 ⟨s, a⟩ c)).2)]
    have e : (fun i => a i - (a i - (forward 3 fun c => (recThreshold lo hi (ch c) (backward 3 ⟨s, a⟩ c)).2).details i))
        = (forward 3 fun c => (recThreshold lo hi (ch c) (backward 3 ⟨s, a⟩ c)).2).details := by funext i; ring
    simp only [e]
    split <;> rfl

/-! ### Pruning -/

theorem recPrune_details (t : WTree) : details (recPrune t) = details t := by
  cases t with
  | nil => rfl
  | leaf a => rfl
  | node a ch => simp only [recPrune]; split <;> rfl

theorem recPrune_isNil (t : WTree) : recPrune t = .nil ↔ t = .nil := by
  cases t with
  | nil => simp [recPrune]
  | leaf a => simp [recPrune]
  | node a ch => simp only [recPrune]; split <;> simp

theorem recPrune_child (t : WTree) (c : Fin (2 ^ 3)) :
    (recPrune t).child c = if keepChild (recPrune (t.child c)) then recPrune (t.child c) else .nil := by
  cases t with
  | nil => simp only [recPrune, child_nil, ite_self]
  | leaf a => simp only [recPrune, child_leaf, ite_self]
  | node a ch =>
    simp only [recPrune, child_node]
    split
    · rfl
    · next h =>
      rw [child_leaf]
      symm
      apply if_neg
      intro hk
      apply h
      rw [List.any_eq_true]
      exact ⟨c, List.mem_finRange c, hk⟩

theorem DepthLe.recPrune {h : Nat} {t : WTree} (ht : DepthLe h t) : DepthLe h (recPrune t) := by
  induction h generalizing t with
  | zero => exact (recPrune_isNil t).2 ht
  | succ h ih =>
    intro c; rw [recPrune_child]
    split
    · exact ih (ht c)
    · exact DepthLe.nil h

/-- Details below the threshold move a child's value by at most `19/8` of it. -/
theorem bwd3_small (v ε : ℚ) (a : Details 3) (ha : ∀ i, |a i| ≤ ε) (c : Fin (2 ^ 3)) :
    |backwardSingleChild 3 ⟨v, a⟩ c - v| ≤ 19 / 8 * ε := by
  rw [bwd_single_eq]
  have hs : ∀ p, |sgn p c.val| = 1 := by intro p; unfold sgn; split <;> simp
  have hterm : ∀ i : Fin (2 ^ 3 - 1), |sgn (i.val + 1) c.val * (a i / (exp2 (popcount (i.val + 1)) : Nat))|
      ≤ ε / (exp2 (popcount (i.val + 1)) : Nat) := by
    intro i
    rw [abs_mul, hs, one_mul, abs_div, abs_of_nonneg (a := ((exp2 (popcount (i.val + 1)) : Nat) : ℚ)) (by positivity)]
    gcongr
    exact ha i
  have hsum : ∀ l : List (Fin (2 ^ 3 - 1)),
      |(l.map fun i => sgn (i.val + 1) c.val * (a i / (exp2 (popcount (i.val + 1)) : Nat))).sum|
        ≤ (l.map fun i => ε / (exp2 (popcount (i.val + 1)) : Nat)).sum := by
    intro l
    induction l with
    | nil => simp
    | cons i l ih =>
      simp only [List.map_cons, List.sum_cons]
      exact le_trans (abs_add_le _ _) (add_le_add (hterm i) ih)
  simp only [add_sub_cancel_left]
  refine le_trans (hsum _) (le_of_eq ?_)
  have hl : (List.finRange (2 ^ 3 - 1)).map (fun i => i.val + 1) = [1, 2, 3, 4, 5, 6, 7] := by decide
  have hm : (List.finRange (2 ^ 3 - 1)).map (fun i => ε / (exp2 (popcount (i.val + 1)) : Nat))
      = ((List.finRange (2 ^ 3 - 1)).map (fun i => i.val + 1)).map fun k => ε / (exp2 (popcount k) : Nat) := by
    rw [List.map_map]; rfl
  rw [hm, hl]
  have e : (exp2 (popcount 1), exp2 (popcount 2), exp2 (popcount 3), exp2 (popcount 4), exp2 (popcount 5), exp2 (popcount 6),
    exp2 (popcount 7)) = (2, 2, 4, 2, 4, 4, 8) := by decide
  simp only [Prod.mk.injEq] at e
  obtain ⟨e1, e2, e3, e4, e5, e6, e7⟩ := e
  simp only [List.map_cons, List.map_nil, List.sum_cons, List.sum_nil]
  rw [e1, e2, e3, e4, e5, e6, e7]
  push_cast; ring

theorem details_small_of_not_keep {t : WTree} (hn : t ≠ .nil) (h : keepChild t = false) :
    t.hasChildrenArray = false ∧ ∀ i, |details t i| ≤ 1 / 1000 := by
  unfold keepChild at h
  have hnil : t.isNil = false := by cases t <;> simp_all [NTree.isNil]
  rw [hnil] at h
  simp only [Bool.not_false, Bool.true_and, Bool.or_eq_false_iff] at h
  refine ⟨h.1, fun i => ?_⟩
  have h2 := h.2
  unfold nonzeroData at h2
  rw [List.any_eq_false] at h2
  have := h2 i (List.mem_finRange i)
  simpa [pruneThreshold] using this

/-- Pruning moves the value of a path of length `q` by at most `19/8 · 10⁻³` per level. -/
theorem recPrune_error (t : WTree) (s : ℚ) (q : List (Fin (2 ^ 3))) :
    |getValue (recPrune t) s q - getValue t s q| ≤ 19 / 8000 * ((q.length - 1 : Nat) : ℚ) := by
  induction q generalizing t s with
  | nil => rw [getValue_nil_path, getValue_nil_path]; simp
  | cons c q ih =>
    by_cases ht : t = .nil
    · subst ht
      simp only [recPrune, sub_self, abs_zero]
      positivity
    · rw [getValue_cons _ ht, getValue_cons _ (fun e => ht ((recPrune_isNil t).1 e)), recPrune_details, recPrune_child]
      generalize backwardSingleChild 3 ⟨s, details t⟩ c = v
      have hlen : ((List.length (c :: q) - 1 : Nat) : ℚ) = (q.length : ℚ) := by simp
      rw [hlen]
      have hmono : (19 / 8000 : ℚ) * ((q.length - 1 : Nat) : ℚ) ≤ 19 / 8000 * (q.length : ℚ) := by
        have : ((q.length - 1 : Nat) : ℚ) ≤ (q.length : ℚ) := by exact_mod_cast Nat.sub_le _ _
        linarith
      by_cases hk : keepChild (recPrune (t.child c)) = true
      · rw [if_pos hk]
        exact le_trans (ih _ v) hmono
      · rw [if_neg hk, getValue_nil]
        by_cases hc : t.child c = .nil
        · rw [hc, getValue_nil, sub_self, abs_zero]; positivity
        · cases q with
          | nil => rw [getValue_nil_path]; simp
          | cons c' q =>
            have hsm := details_small_of_not_keep (fun e => hc ((recPrune_isNil _).1 e)) (by simpa using hk)
            have h1 := ih (t.child c) v
            have h2 : getValue (recPrune (t.child c)) v (c' :: q)
                = backwardSingleChild 3 ⟨v, details (recPrune (t.child c))⟩ c' := by
              rw [getValue_cons _ (fun e => hc ((recPrune_isNil _).1 e))]
              have : (recPrune (t.child c)).child c' = .nil := by
                cases hh : recPrune (t.child c) with
                | nil => rfl
                | leaf a => rfl
                | node a ch => rw [hh] at hsm; exact absurd hsm.1 (by simp [hasChildrenArray])
              rw [this, getValue_nil]
            have h3 := bwd3_small v (1 / 1000) _ hsm.2 c'
            rw [← h2] at h3
            have hl : ((List.length (c' :: q) - 1 : Nat) : ℚ) = (q.length : ℚ) := by simp
            rw [hl] at h1
            have hl2 : ((c' :: q).length : ℚ) = (q.length : ℚ) + 1 := by simp
            rw [hl2]
            rw [abs_sub_comm] at h3
            have := abs_sub_le v (getValue (recPrune (t.child c)) v (c' :: q)) (getValue (t.child c) v (c' :: q))
            linarith

/-- Every stored detail coefficient is zero or larger than the pruning threshold. -/
def NoSmallDetails (t : WTree) : Prop :=
  ∀ q i, details (t.descend q) i = 0 ∨ 1 / 1000 < |details (t.descend q) i|

/-- Then pruning changes no value at all. -/
theorem recPrune_lossless (t : WTree) (ht : NoSmallDetails t) (s : ℚ) (q : List (Fin (2 ^ 3))) :
    getValue (recPrune t) s q = getValue t s q := by
  induction q generalizing t s with
  | nil => rw [getValue_nil_path, getValue_nil_path]
  | cons c q ih =>
    by_cases hnil : t = .nil
    · subst hnil; simp only [recPrune]
    · rw [getValue_cons _ hnil, getValue_cons _ (fun e => hnil ((recPrune_isNil t).1 e)), recPrune_details, recPrune_child]
      generalize backwardSingleChild 3 ⟨s, details t⟩ c = v
      have htc : NoSmallDetails (t.child c) := fun q i => by have := ht (c :: q) i; rwa [descend_cons] at this
      by_cases hk : keepChild (recPrune (t.child c)) = true
      · rw [if_pos hk]; exact ih _ htc v
      · rw [if_neg hk, getValue_nil]
        by_cases hc : t.child c = .nil
        · rw [hc, getValue_nil]
        · rw [← ih _ htc v]
          have hsm := details_small_of_not_keep (fun e => hc ((recPrune_isNil _).1 e)) (by simpa using hk)
          have hz : details (recPrune (t.child c)) = fun _ => 0 := by
            funext i
            have h1 := hsm.2 i
            rw [recPrune_details] at h1 ⊢
            have h2 := htc [] i
            rw [descend_nil'] at h2
            rcases h2 with h2 | h2
            · exact h2
            · linarith
          cases q with
          | nil => rw [getValue_nil_path]
          | cons c' q =>
            rw [getValue_cons _ (fun e => hc ((recPrune_isNil _).1 e)), hz]
            have : (recPrune (t.child c)).child c' = .nil := by
              cases hh : recPrune (t.child c) with
              | nil => rfl
              | leaf a => rfl
              | node a ch => rw [hh] at hsm; exact absurd hsm.1 (by simp [hasChildrenArray])
            rw [this, getValue_nil]
            exact (bwd_single_const v c').symm

/-- Pruning twice is the same as once. -/
theorem recPrune_idem (t : WTree) : recPrune (recPrune t) = recPrune t := by
  induction t with
  | nil => rfl
  | leaf a => rfl
  | node a ch ih =>
    have hkn : keepChild (.nil : WTree) = false := rfl
    have hk : ∀ c, recPrune (if keepChild (recPrune (ch c)) then recPrune (ch c) else .nil)
        = if keepChild (recPrune (ch c)) then recPrune (ch c) else .nil := by
      intro c; split
      · exact ih c
      · rfl
    simp only [recPrune]
    split
    · next h =>
      simp only [recPrune, hk]
      rw [if_pos]
      · congr 1
        funext c
        by_cases hc : keepChild (recPrune (ch c)) = true
        · simp only [hc, if_true]
        · simp only [hc, hkn, Bool.false_eq_true, if_false]
      · rw [List.any_eq_true] at h ⊢
        obtain ⟨c, hc, hkc⟩ := h
        exact ⟨c, hc, by rw [if_pos hkc]; exact hkc⟩
    · rfl

end WTree
end Wavemap
