import Verif.Model.Wavelet
import Verif.Lemmas.Ndtree
import Verif.Props.Haar
import Mathlib.Tactic.FieldSimp
/-! # Helper lemmas about wavelet trees -/
namespace Wavemap
open Haar NTree

theorem h3 : 1 ≤ 3 ∧ 3 ≤ 3 := ⟨by decide, by decide⟩

theorem bwd3_shift (v δ : ℚ) (a : Details 3) (c : Fin (2 ^ 3)) :
    backwardSingleChild 3 ⟨v + δ, a⟩ c = backwardSingleChild 3 ⟨v, a⟩ c + δ := by
  have : (⟨v + δ, a⟩ : Parent 3) = Parent.add ⟨v, a⟩ ⟨δ, fun _ => 0⟩ := by
    simp [Parent.add]
  rw [this, bwd_single_add, bwd_single_const]

theorem bwd3_single (p : Parent 3) (c : Fin (2 ^ 3)) : backward 3 p c = backwardSingleChild 3 p c :=
  (C11_backward_single 3 h3 p c).symm

theorem bwd3_update (v : ℚ) (a : Details 3) (u : ℚ) (c c' : Fin (2 ^ 3)) :
    backwardSingleChild 3 ⟨v + (forwardSingleChild 3 u c).scale,
        fun i => a i + (forwardSingleChild 3 u c).details i⟩ c'
      = backwardSingleChild 3 ⟨v, a⟩ c' + (if c' = c then u else 0) :=
  C11_single_update 3 h3 ⟨v, a⟩ u c c'

/-- Sum over the eight children. -/
def sum8 (f : Fin (2 ^ 3) → ℚ) : ℚ := ((List.finRange (2 ^ 3)).map f).sum

theorem sum8_add (f g : Fin (2 ^ 3) → ℚ) : sum8 (fun c => f c + g c) = sum8 f + sum8 g := sum_map_add f g _

theorem sum8_const (k : ℚ) : sum8 (fun _ => k) = 8 * k := by
  simp only [sum8, List.map_const', List.length_finRange, List.sum_replicate, nsmul_eq_mul]
  norm_num

theorem sum8_single (c : Fin (2 ^ 3)) (u : ℚ) : sum8 (fun c' => if c' = c then u else 0) = u := by
  unfold sum8
  rw [sum_finRange_single _ c]
  · simp
  · intro j hj; simp [hj]

theorem fwd3_scale (x : Coeffs 3) : (forward 3 x).scale = sum8 x / 8 := by
  rw [C10_scale_is_mean 3 h3]; norm_num [sum8]

theorem bwd3_mean (p : Parent 3) : sum8 (fun c => backwardSingleChild 3 p c) = 8 * p.scale := by
  have h : (forward 3 (backward 3 p)).scale = p.scale := by rw [C10_forward_backward 3 h3]
  rw [fwd3_scale] at h
  have e : sum8 (fun c => backwardSingleChild 3 p c) = sum8 (backward 3 p) := by
    unfold sum8; congr 2; funext c; exact (bwd3_single p c).symm
  rw [e, ← h]; ring

theorem fwd3_single_scale (u : ℚ) (c : Fin (2 ^ 3)) : (forwardSingleChild 3 u c).scale = u / 8 := by
  rw [C11_forward_single 3 h3, fwd3_scale, sum8_single]

namespace WTree

@[simp] theorem getValue_nil_path (t : WTree) (v : ℚ) : getValue t v [] = v := by
  unfold getValue; rfl

@[simp] theorem getValue_nil (v : ℚ) (p) : getValue .nil v p = v := by
  cases p <;> simp [getValue, NTree.isNil]

theorem getValue_cons (t : WTree) (ht : t ≠ .nil) (v : ℚ) (c p) :
    getValue t v (c :: p) = getValue (t.child c) (backwardSingleChild 3 ⟨v, details t⟩ c) p := by
  rw [getValue]
  cases t <;> simp_all [NTree.isNil]

theorem getValue_append (t : WTree) (v : ℚ) (p q : List (Fin (2 ^ 3))) :
    getValue t v (p ++ q) = getValue (t.descend p) (getValue t v p) q := by
  induction p generalizing t v with
  | nil => rfl
  | cons c p ih =>
    by_cases ht : t = .nil
    · subst ht; simp
    · rw [List.cons_append, getValue_cons t ht, getValue_cons t ht, ih]; simp

theorem getValue_shift (t : WTree) (v δ : ℚ) (q) : getValue t (v + δ) q = getValue t v q + δ := by
  induction q generalizing t v with
  | nil => rfl
  | cons c q ih =>
    by_cases ht : t = .nil
    · subst ht; simp
    · rw [getValue_cons t ht, getValue_cons t ht, bwd3_shift, ih]

/-- The value of a node is the mean of the values of its children. -/
theorem getValue_mean (t : WTree) (v : ℚ) (q : List (Fin (2 ^ 3))) :
    sum8 (fun c => getValue t v (q ++ [c])) = 8 * getValue t v q := by
  have h : ∀ c, getValue t v (q ++ [c]) = getValue (t.descend q) (getValue t v q) [c] :=
    fun c => getValue_append t v q [c]
  simp only [h]
  by_cases ht : t.descend q = .nil
  · simp only [ht, getValue_nil]; exact sum8_const _
  · simp only [getValue_cons _ ht, getValue_nil_path]; exact bwd3_mean _

theorem getOrAllocate_getValue (t : WTree) (c : Fin (2 ^ 3)) (v : ℚ) (q) :
    getValue (t.getOrAllocateChild c zeroDetails) v q = getValue (t.child c) v q := by
  unfold NTree.getOrAllocateChild
  cases h : t.child c with
  | nil =>
    cases q with
    | nil => rfl
    | cons c' q =>
      rw [getValue_cons _ (by simp)]
      simp only [child_leaf, getValue_nil, details]
      exact bwd_single_const v c'
  | leaf a => rfl
  | node a ch => rfl

theorem details_setData (t : WTree) (ht : t ≠ .nil) (a : Details 3) : details (t.setData a) = a := by
  cases t <;> simp_all [NTree.setData, details]

theorem setData_child (t : WTree) (a : Details 3) (c) : (t.setData a).child c = t.child c := by
  cases t <;> rfl

theorem setData_ne_nil (t : WTree) (ht : t ≠ .nil) (a : Details 3) : t.setData a ≠ .nil := by
  cases t <;> simp_all [NTree.setData]

theorem addPath_ne_nil (t : WTree) (ht : t ≠ .nil) (p u) : (addPath t p u).1 ≠ .nil := by
  unfold addPath
  split
  · exact ht
  · exact setData_ne_nil _ ht _
  · exact setData_ne_nil _ (setChild_ne_nil _ ht _ _) _

/-- Effect of an update on the values of all nodes: nodes below the updated one shift by `u`, strict
ancestors by the share of the mean, all others are unchanged. -/
theorem addPath_getValue (t : WTree) (ht : t ≠ .nil) (p : List (Fin (2 ^ 3))) (u v : ℚ) (q : List (Fin (2 ^ 3))) :
    getValue (addPath t p u).1 (v + (addPath t p u).2) q
      = getValue t v q + (if p <+: q then u else if q <+: p then u / 8 ^ (p.length - q.length) else 0) := by
  induction p generalizing t v q u with
  | nil => simp [addPath, getValue_shift]
  | cons c p ih =>
    have hnode : ∀ (s : WTree) (δ : ℚ) (a : Details 3), s ≠ .nil →
        (∀ c', c' ≠ c → s.child c' = t.child c') →
        ∀ c' q', c' ≠ c → getValue (withDetails s fun i => details t i + (forwardSingleChild 3 δ c).details i)
          (v + (forwardSingleChild 3 δ c).scale) (c' :: q') = getValue t v (c' :: q') := by
      intro s δ a hs hch c' q' hc'
      unfold withDetails
      rw [getValue_cons _ (setData_ne_nil _ hs _), getValue_cons _ ht]
      rw [details_setData _ hs, setData_child, hch c' hc', bwd3_update, if_neg hc', add_zero]
    cases p with
    | nil =>
      cases q with
      | nil =>
        simp only [getValue_nil_path, addPath, fwd3_single_scale]
        simp
      | cons c' q =>
        by_cases hc : c' = c
        · subst hc
          simp only [addPath]
          unfold withDetails
          rw [getValue_cons _ (setData_ne_nil _ ht _), getValue_cons _ ht]
          rw [details_setData _ ht, setData_child, bwd3_update, if_pos rfl, getValue_shift]
          simp
        · simp only [addPath]
          rw [hnode t u (details t) ht (fun _ _ => rfl) c' q hc]
          have h1 : ¬ ([c] <+: c' :: q) := by simp [Ne.symm hc]
          have h2 : ¬ (c' :: q <+: [c]) := by simp [hc]
          simp [h1, h2]
    | cons c1 p =>
      cases q with
      | nil =>
        have := ih (t.getOrAllocateChild c zeroDetails) (getOrAllocateChild_ne_nil _ _ _) u 0 []
        simp only [getValue_nil_path, zero_add] at this
        simp only [getValue_nil_path, addPath, fwd3_single_scale, this]
        simp [pow_succ]
        field_simp
      | cons c' q =>
        have hs := setChild_ne_nil t ht c (addPath (t.getOrAllocateChild c zeroDetails) (c1 :: p) u).1
        by_cases hc : c' = c
        · subst hc
          simp only [addPath]
          unfold withDetails
          rw [getValue_cons _ (setData_ne_nil _ hs _), getValue_cons _ ht]
          rw [details_setData _ hs, setData_child, bwd3_update, if_pos rfl, setChild_child _ ht, if_pos rfl,
            ih _ (getOrAllocateChild_ne_nil _ _ _), getOrAllocate_getValue]
          simp [List.cons_prefix_cons]
        · simp only [addPath]
          rw [hnode _ _ (details t) hs _ c' q hc]
          · have h1 : ¬ (c :: c1 :: p <+: c' :: q) := by simp [List.cons_prefix_cons, Ne.symm hc]
            have h2 : ¬ (c' :: q <+: c :: c1 :: p) := by simp [List.cons_prefix_cons, hc]
            simp [h1, h2]
          · intro c'' hc''
            rw [setChild_child _ ht, if_neg hc'']

/-- `current_value` is the value of the parent. -/
theorem currentValue_eq (t : WTree) (ht : t ≠ .nil) (v : ℚ) (p : List (Fin (2 ^ 3))) (c : Fin (2 ^ 3)) :
    currentValue t v (p ++ [c]) = getValue t v p := by
  induction p generalizing t v with
  | nil => rfl
  | cons c' p ih =>
    have : ∃ x l, p ++ [c] = x :: l := by cases p <;> simp
    obtain ⟨x, l, hx⟩ := this
    rw [List.cons_append, hx, currentValue, ← hx, ih _ (getOrAllocateChild_ne_nil _ _ _),
      getOrAllocate_getValue, getValue_cons _ ht]

end WTree
end Wavemap
