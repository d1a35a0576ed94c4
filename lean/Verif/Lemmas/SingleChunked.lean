import Verif.Lemmas.ChunkedWavelet
import Verif.Lemmas.SingleThreshold
import Verif.Model.SingleChunked
/-!
# Chunked wavelet octrees in single precision simulate the plain ones

The proofs follow `Verif.Lemmas.ChunkedWavelet`. The one difference is nodes that the chunked tree has and the plain one does not: they carry zero details, and passing a single
precision number through them returns that number.
-/
namespace Wavemap

/-- What chunked and plain octrees need of a rounding to remain equal: zero is kept, numbers that have been rounded are kept, and no number changes its sign. It holds for rounding to
single precision, with or without subnormal numbers, and if numbers that are too large are replaced by the largest one. -/
class IsRounding (q : ℚ → ℚ) : Prop where
  zero : q 0 = 0
  idem : ∀ x, q (q x) = q x
  nonneg : ∀ x, 0 ≤ x → 0 ≤ q x

/-- A number that is not changed by rounding. -/
abbrev Fixed (q : ℚ → ℚ) (x : ℚ) : Prop := q x = x

instance : IsRounding fl := ⟨fl_of_isFloat isFloat_zero, fun x => fl_of_isFloat (isFloat_fl x), fun x h => by
  have := fl_mono h
  rwa [fl_of_isFloat isFloat_zero] at this⟩

namespace Rounded
open Haar NTree

set_option linter.unusedSectionVars false

variable {ρ : ℚ → ℚ} [IsRounding ρ]

section
omit [IsRounding ρ]

theorem anyThreshold_isNil (lo hi : ℚ) (t : WTree) (s : ℚ) : (recThreshold ρ lo hi t s).1 = .nil ↔ t = .nil := by
  cases t <;> simp [recThreshold]

theorem anyThreshold_child (lo hi : ℚ) (t : WTree) (s : ℚ) (c : Fin (2 ^ 3)) :
    (recThreshold ρ lo hi t s).1.child c = (recThreshold ρ lo hi (t.child c) (backward ρ ⟨s, WTree.details t⟩ c)).1 := by
  cases t with
  | nil => simp only [recThreshold, child_nil]
  | leaf a => simp only [recThreshold, child_leaf]
  | node a ch => simp only [recThreshold, WTree.details, child_node]

theorem anyThreshold_scale (lo hi : ℚ) (t : WTree) (ht : t ≠ .nil) (s : ℚ) :
    (recThreshold ρ lo hi t s).2 = (forward ρ fun c => (recThreshold ρ lo hi (t.child c) (backward ρ ⟨s, WTree.details t⟩ c)).2).scale := by
  cases t with
  | nil => exact absurd rfl ht
  | leaf a => rfl
  | node a ch => rfl

theorem anyThreshold_details (lo hi : ℚ) (t : WTree) (ht : t ≠ .nil) (s : ℚ) :
    WTree.details (recThreshold ρ lo hi t s).1 = (forward ρ fun c => (recThreshold ρ lo hi (t.child c) (backward ρ ⟨s, WTree.details t⟩ c)).2).details := by
  cases t with
  | nil => exact absurd rfl ht
  | leaf a => rfl
  | node a ch => rfl

theorem anyThreshold_depth {h : Nat} {t : WTree} (ht : WTree.DepthLe h t) (lo hi s : ℚ) : WTree.DepthLe h (recThreshold ρ lo hi t s).1 := by
  induction h generalizing t s with
  | zero =>
    have ht' : t = .nil := ht
    subst ht'; rfl
  | succ h ih => intro c; rw [anyThreshold_child]; exact ih (ht c) _

theorem anyPrune_isNil (t : WTree) : recPrune ρ t = .nil ↔ t = .nil := by
  cases t with
  | nil => simp [recPrune]
  | leaf a => simp [recPrune]
  | node a ch => simp only [recPrune]; split <;> simp

theorem anyPrune_child (t : WTree) (c : Fin (2 ^ 3)) :
    (recPrune ρ t).child c = if keepChild ρ (recPrune ρ (t.child c)) then recPrune ρ (t.child c) else .nil := by
  cases t with
  | nil => simp only [recPrune, child_nil, ite_self]
  | leaf a => simp only [recPrune, child_leaf, ite_self]
  | node a ch =>
    simp only [recPrune, child_node]
    split
    · rfl
    · next h =>
      rw [child_leaf]
      symm
      apply if_neg
      intro hk
      apply h
      rw [List.any_eq_true]
      exact ⟨c, List.mem_finRange c, hk⟩

theorem anyPrune_depth {h : Nat} {t : WTree} (ht : WTree.DepthLe h t) : WTree.DepthLe h (recPrune ρ t) := by
  induction h generalizing t with
  | zero => exact (anyPrune_isNil t).2 ht
  | succ h ih =>
    intro c; rw [anyPrune_child]
    split
    · exact ih (ht c)
    · exact WTree.DepthLe.nil h

end

theorem bwd_single_zero {v : ℚ} (hv : Fixed ρ v) (i : Fin (2 ^ 3)) : backwardSingleChild ρ ⟨v, zeroDetails⟩ i = v := by
  have h0 : ρ 0 = 0 := IsRounding.zero
  have hstep : ∀ (l : List (Fin (2 ^ 3 - 1))), l.foldl (fun scale i_1 =>
      let parentIdx := i_1.val + 1
      let contribution := ρ ((zeroDetails : Details 3) i_1 / (exp2 (popcount parentIdx) : Nat))
      ρ (scale + (if parity (andNot parentIdx i.val) then -contribution else contribution))) v = v := by
    intro l
    induction l with
    | nil => rfl
    | cons k l ih =>
      rw [List.foldl_cons]
      have : (zeroDetails : Details 3) k = 0 := rfl
      simp only [this, zero_div, h0, neg_zero, ite_self, add_zero, hv]
      simpa only [this, zero_div, h0, neg_zero, ite_self, add_zero] using ih
  exact hstep _

theorem bwd_single_isFloat (p : Parent 3) (i : Fin (2 ^ 3)) : Fixed ρ (backwardSingleChild ρ p i) := by
  have : ∃ x, backwardSingleChild ρ p i = ρ x := ⟨_, rfl⟩
  obtain ⟨x, h⟩ := this
  rw [h]; exact IsRounding.idem _

theorem backward_isFloat (p : Parent 3) (i : Fin (2 ^ 3)) : Fixed ρ (backward ρ p i) := by
  have : ∃ x, backward ρ p i = ρ x := by
    fin_cases i <;> exact ⟨_, rfl⟩
  obtain ⟨x, h⟩ := this
  rw [h]; exact IsRounding.idem _

theorem forward_isFloat (c : Coeffs 3) : Fixed ρ (forward ρ c).scale := by
  have : ∃ x, (forward ρ c).scale = ρ x := ⟨_, rfl⟩
  obtain ⟨x, h⟩ := this
  rw [h]; exact IsRounding.idem _

theorem forward_const {k : ℚ} (hk : Fixed ρ k) : forward ρ (fun _ => k) = ⟨k, zeroDetails⟩ := by
  have h0 : ρ 0 = 0 := IsRounding.zero
  have hd : ∀ x : ℚ, ρ (x - x) = 0 := fun x => by rw [sub_self, h0]
  have hs : ∀ x : ℚ, Fixed ρ x → ρ (x + ρ (1 / 2 * ρ (x - x))) = x := fun x h => by rw [hd, mul_zero, h0, add_zero, h]
  have hk' := hs k hk
  have hz := hs 0 h0
  have e0 : (List.range (exp2 2)).foldl (forwardBeam ρ 0) (fun _ => k) = fun i => if i.val % 2 = 1 then 0 else k := by
    funext i
    fin_cases i <;> first | exact hd k | exact hk'
  have e1 : (List.range (exp2 2)).foldl (forwardBeam ρ 1) (fun i => if i.val % 2 = 1 then 0 else k) = fun i => if i.val % 4 = 0 then k else 0 := by
    funext i
    fin_cases i <;> first | exact hd k | exact hk' | exact hd 0 | exact hz
  have e2 : (List.range (exp2 2)).foldl (forwardBeam ρ 2) (fun i => if i.val % 4 = 0 then k else 0) = fun i => if i.val = 0 then k else 0 := by
    funext i
    fin_cases i <;> first | exact hd k | exact hk' | exact hd 0 | exact hz
  have e : forward ρ (fun _ => k) = Parent.ofArray ((List.range (exp2 2)).foldl (forwardBeam ρ 2)
      ((List.range (exp2 2)).foldl (forwardBeam ρ 1) ((List.range (exp2 2)).foldl (forwardBeam ρ 0) (fun _ => k)))) := by
    unfold forward
    rw [show List.range 3 = [0, 1, 2] by decide]
    simp only [List.foldl_cons, List.foldl_nil]
  rw [e, e0, e1, e2]
  rfl

theorem backward_zero_of {r : ℚ → ℚ} (h0 : r 0 = 0) {v : ℚ} (hv : r v = v) (i : Fin (2 ^ 3)) : backward r ⟨v, zeroDetails⟩ i = v := by
  have hs : ∀ x : ℚ, r x = x → r (x - r (1 / 2 * 0)) = x := fun x h => by rw [mul_zero, h0, sub_zero, h]
  have hd : ∀ x : ℚ, r x = x → r (0 + r (x - r (1 / 2 * 0))) = x := fun x h => by rw [hs x h, zero_add, h]
  have hv1 := hs v hv
  have hv2 := hd v hv
  have hz1 := hs 0 h0
  have hz2 := hd 0 h0
  have e : backward r ⟨v, zeroDetails⟩ = (List.range (exp2 2)).foldl (backwardBeam r 2)
      ((List.range (exp2 2)).foldl (backwardBeam r 1) ((List.range (exp2 2)).foldl (backwardBeam r 0) (Parent.get ⟨v, zeroDetails⟩))) := by
    unfold backward
    rw [show List.range 3 = [0, 1, 2] by decide]
    simp only [List.foldl_cons, List.foldl_nil]
  have e' : Parent.get (⟨v, zeroDetails⟩ : Parent 3) = fun i => if i.val = 0 then v else 0 := by
    funext i
    fin_cases i <;> rfl
  have e0 : (List.range (exp2 2)).foldl (backwardBeam r 0) (fun i => if i.val = 0 then v else 0) = fun i => if i.val / 2 = 0 then v else 0 := by
    funext i
    fin_cases i <;> first | exact hv1 | exact hv2 | exact hz1 | exact hz2
  have e1 : (List.range (exp2 2)).foldl (backwardBeam r 1) (fun i => if i.val / 2 = 0 then v else 0) = fun i => if i.val / 4 = 0 then v else 0 := by
    funext i
    fin_cases i <;> first | exact hv1 | exact hv2 | exact hz1 | exact hz2
  have e2 : (List.range (exp2 2)).foldl (backwardBeam r 2) (fun i => if i.val / 4 = 0 then v else 0) = fun _ => v := by
    funext i
    fin_cases i <;> first | exact hv1 | exact hv2
  rw [e, e', e0, e1, e2]

theorem backward_zero {v : ℚ} (hv : Fixed ρ v) (i : Fin (2 ^ 3)) : backward ρ ⟨v, zeroDetails⟩ i = v :=
  backward_zero_of (IsRounding.zero) (hv) i

theorem clamp_isFloat {lo hi v : ℚ} (hlo : Fixed ρ lo) (hhi : Fixed ρ hi) (hv : Fixed ρ v) : Fixed ρ (clamp lo hi v) := by
  unfold clamp; split_ifs <;> assumption

@[simp] theorem getValue_nil (v : ℚ) (p) : getValue ρ .nil v p = v := by
  cases p <;> simp [getValue, NTree.isNil]

theorem getValue_cons (t : WTree) (ht : t ≠ .nil) (v : ℚ) (c p) :
    getValue ρ t v (c :: p) = getValue ρ (t.child c) (backwardSingleChild ρ ⟨v, WTree.details t⟩ c) p := by
  rw [getValue]
  cases t <;> simp_all [NTree.isNil]

theorem nonzeroData_zero : WTree.nonzeroData (ρ (1 / 1000)) (WTree.details .nil) = false := by
  have h := IsRounding.nonneg (q := ρ) (1 / 1000) (by norm_num)
  unfold WTree.nonzeroData
  rw [List.any_eq_false]
  intro i _
  have : WTree.details .nil i = 0 := rfl
  simp only [this, abs_zero, decide_eq_true_eq, not_lt]
  exact h

namespace Chunked
open WChunks Chunks ChunkNode

theorem getValue_sim (q : List (Fin (2 ^ 3))) : ∀ {s : WChunks} {p t}, Sub s p t → ∀ v, Fixed ρ v →
    Chunked.getValue ρ s (at_ p) v q = Rounded.getValue ρ t v q := by
  induction q with
  | nil => intro s p t h v _; cases t <;> rfl
  | cons i q ih =>
    intro s p t h v hv
    have hg := Chunks.Sub.getChild h i
    rw [Chunked.getValue, h.details]
    by_cases ht : t = .nil
    · subst ht
      rw [Rounded.getValue_nil]
      have : s.getChild 3 chunkHeight (at_ p) i = none := by rw [hg, if_neg]; simp [NTree.hasChildrenArray]
      rw [this]
      exact bwd_single_zero hv i
    · rw [Rounded.getValue_cons t ht]
      cases hx : s.getChild 3 chunkHeight (at_ p) i with
      | none =>
        have : t.child i = .nil := by
          by_contra hn
          rw [hg, if_pos] at hx
          · simp at hx
          · exact ⟨by cases t <;> simp_all [NTree.hasChildrenArray], fun _ => NTree.isNil_false.2 hn⟩
        rw [this, Rounded.getValue_nil]
      | some r =>
        have : r = at_ (p ++ [i]) := by
          rw [hg] at hx
          split at hx
          · exact (Option.some.inj hx).symm
          · simp at hx
        subst this
        exact ih (h.child i) _ (bwd_single_isFloat _ _)

theorem currentValue_sim (q : List (Fin (2 ^ 3))) : ∀ {s : WChunks} {p t}, Sub s p t → ∀ v,
    Chunked.currentValue ρ s (at_ p) v q = Rounded.currentValue ρ t v q := by
  induction q with
  | nil => intro s p t h v; simp [Chunked.currentValue, Rounded.currentValue]
  | cons i q ih =>
    intro s p t h v
    cases q with
    | nil => simp [Chunked.currentValue, Rounded.currentValue]
    | cons i' q =>
      rw [Chunked.currentValue, Rounded.currentValue, h.details]
      have e : (s.getOrAllocateChild zeroDetails 3 chunkHeight (at_ p) i).2 = at_ (p ++ [i]) := by
        rw [alloc_snd]; exact (ofPath_snoc p i).symm
      rw [e]
      exact ih (alloc_sub_self hd3 hc3 hc3' h) _

theorem addPath_sim (q : List (Fin (2 ^ 3))) : ∀ {s : WChunks} {p t}, t ≠ .nil → Sub s p t → s.live (at_ p) = true → ∀ u,
    (Chunked.addPath ρ s (at_ p) q u).2 = (Rounded.addPath ρ t q u).2 ∧ Sub (Chunked.addPath ρ s (at_ p) q u).1 p (Rounded.addPath ρ t q u).1 ∧
    Frame s (Chunked.addPath ρ s (at_ p) q u).1 p ∧ (Chunked.addPath ρ s (at_ p) q u).1.live (at_ p) = true := by
  induction q with
  | nil =>
    intro s p t ht h hl u
    rw [Chunked.addPath, Rounded.addPath]
    exact ⟨rfl, h, Chunks.Frame.refl _ _ _, hl⟩
  | cons i q ih =>
    intro s p t ht h hl u
    cases q with
    | nil =>
      rw [Chunked.addPath, Rounded.addPath, h.details]
      dsimp only
      refine ⟨rfl, ?_, setData_frame hd3 hc3 hc3' _ _ _ _, by rw [live_setData]; exact hl⟩
      apply Chunks.Sub.assemble
      · rw [setData_slot_self hd3 hc3 hc3' _ _ hl, h.slot]
        cases t <;> simp_all [WTree.withDetails, NTree.setData, NTree.hasChildrenArray, NTree.data?]
      · intro h0
        rw [live_setData, h.root_live h0]
        cases t <;> simp [WTree.withDetails, NTree.setData, NTree.isNil]
      · intro j
        have : (t.withDetails fun k => ρ (WTree.details t k + (forwardSingleChild ρ u i).details k)).child j = t.child j :=
          WTree.setData_child _ _ _
        rw [this]
        exact setData_sub_child hd3 hc3 hc3' _ (h.child j)
    | cons i' q =>
      rw [Chunked.addPath, Rounded.addPath]
      dsimp only
      have e : (s.getOrAllocateChild zeroDetails 3 chunkHeight (at_ p) i).2 = at_ (p ++ [i]) := by
        rw [alloc_snd]; exact (ofPath_snoc p i).symm
      rw [e]
      have hs1 : Sub (s.getOrAllocateChild zeroDetails 3 chunkHeight (at_ p) i).1 (p ++ [i])
          (t.getOrAllocateChild i zeroDetails) := alloc_sub_self hd3 hc3 hc3' h
      have hl1 := alloc_live_self zeroDetails s p i hl
      obtain ⟨h1, h2, h3, h4⟩ := ih (NTree.getOrAllocateChild_ne_nil t i zeroDetails) hs1 hl1 u
      have hlp : (s.getOrAllocateChild zeroDetails 3 chunkHeight (at_ p) i).1.live (at_ p) = true := by
        rw [alloc_live, hl]; rfl
      have hfr1 := alloc_frame (c := chunkHeight) hd3 hc3 hc3' zeroDetails s p i
      have hslot1 : (s.getOrAllocateChild zeroDetails 3 chunkHeight (at_ p) i).1.slot zeroDetails 3 (at_ p)
          = (WTree.details t, true) := by
        rw [alloc_slot hd3 hc3' zeroDetails s (ofPath_ok hc3 p) (ofPath_ok hc3 p), if_pos ⟨rfl, hl⟩, h.slot, data_getD]
      have hoth : ∀ j, j ≠ i → Sub (s.getOrAllocateChild zeroDetails 3 chunkHeight (at_ p) i).1 (p ++ [j]) (t.child j) :=
        fun j hj => alloc_sub_child hd3 hc3 hc3' hj (h.child j)
      have hdep : (at_ p).depth = 0 → (s.getOrAllocateChild zeroDetails 3 chunkHeight (at_ p) i).1.live (at_ p) = true :=
        fun _ => hlp
      generalize (s.getOrAllocateChild zeroDetails 3 chunkHeight (at_ p) i).1 = s1 at *
      rw [h1]
      generalize (Rounded.addPath ρ (t.getOrAllocateChild i zeroDetails) (i' :: q) u) = tu at *
      generalize hs2 : (Chunked.addPath ρ s1 (at_ (p ++ [i])) (i' :: q) u).1 = s2 at *
      have hlp2 : s2.live (at_ p) = true := by
        rw [Chunks.Frame.live h3 (snoc_not_prefix p i)]; exact hlp
      have hslot2 : s2.slot zeroDetails 3 (at_ p) = (WTree.details t, true) := by
        rw [Chunks.Frame.slot h3]; exact hslot1
      have hdet : WChunks.details s2 (at_ p) = WTree.details t := by
        unfold WChunks.details; rw [data_slot, hslot2]
      rw [hdet]
      refine ⟨rfl, ?_, (hfr1.trans h3.widen).trans (setData_frame hd3 hc3 hc3' _ _ _ _), by rw [live_setData]; exact hlp2⟩
      have hsc : t.setChild i tu.1 ≠ .nil := by cases t <;> simp_all [NTree.setChild]
      apply Chunks.Sub.assemble
      · rw [setData_slot_self hd3 hc3 hc3' _ _ hlp2, hslot2]
        cases t <;> simp_all [WTree.withDetails, NTree.setData, NTree.setChild, NTree.hasChildrenArray, NTree.data?]
      · intro h0
        rw [live_setData, hlp2]
        cases t <;> simp_all [WTree.withDetails, NTree.setData, NTree.setChild, NTree.isNil]
      · intro j
        have : (WTree.withDetails (t.setChild i tu.1)
            fun k => ρ (WTree.details t k + (forwardSingleChild ρ tu.2 i).details k)).child j
            = if j = i then tu.1 else t.child j := by
          unfold WTree.withDetails
          rw [WTree.setData_child, NTree.setChild_child t ht]
        rw [this]
        apply setData_sub_child hd3 hc3 hc3'
        by_cases hj : j = i
        · subst hj; rw [if_pos rfl]; exact h2
        · rw [if_neg hj]
          exact Chunks.Frame.sub h3 hj (hoth j hj)

/-- What a recursive call on a child promises. -/
def ThrCall (ρ : ℚ → ℚ) (lo hi : ℚ) (rec : WChunks → ChunkNode → ℚ → Option (WChunks × ℚ)) (p : List (Fin (2 ^ 3))) (t : WTree) : Prop :=
  ∀ s, Sub s p t → s.live (at_ p) = true → ∀ v, Fixed ρ v → ∃ s' w, rec s (at_ p) v = some (s', w) ∧
    w = (Rounded.recThreshold ρ lo hi t v).2 ∧ Sub s' p (Rounded.recThreshold ρ lo hi t v).1 ∧ Frame s s' p

theorem thresholdChildren_sim {lo hi : ℚ} {rec p} {t : WTree}
    (hrec : t.hasChildrenArray = true → ∀ i, ThrCall ρ lo hi rec (p ++ [i]) (t.child i)) (l : List (Fin (2 ^ 3))) (hnd : l.Nodup) :
    ∀ (s : WChunks) (v : Fin (2 ^ 3) → ℚ), (∀ j ∈ l, Fixed ρ (v j)) → (s.slot zeroDetails 3 (at_ p)).2 = t.hasChildrenArray →
      s.live (at_ p) = true → (∀ j ∈ l, Sub s (p ++ [j]) (t.child j)) →
    ∃ s' w, thresholdChildren rec lo hi (at_ p) l (s, v) = some (s', w) ∧
      (∀ j, w j = if j ∈ l then (Rounded.recThreshold ρ lo hi (t.child j) (v j)).2 else v j) ∧
      (∀ j ∈ l, Sub s' (p ++ [j]) (Rounded.recThreshold ρ lo hi (t.child j) (v j)).1) ∧
      (∀ j, j ∉ l → ∀ u, Sub s (p ++ [j]) u → Sub s' (p ++ [j]) u) ∧
      s'.slot zeroDetails 3 (at_ p) = s.slot zeroDetails 3 (at_ p) ∧ s'.live (at_ p) = true ∧ Frame s s' p := by
  induction l with
  | nil =>
    intro s v hv hs hl _
    exact ⟨s, v, rfl, fun j => by simp, fun j hj => by simp at hj, fun j _ u h => h, rfl, hl, Chunks.Frame.refl _ _ _⟩
  | cons i l ih =>
    intro s v hv hs hl hsub
    have hil : i ∉ l := (List.nodup_cons.mp hnd).1
    have hnd' := (List.nodup_cons.mp hnd).2
    have hsi := hsub i (List.mem_cons_self ..)
    -- one step
    have step : ∃ s1 w1, thresholdChildren rec lo hi (at_ p) (i :: l) (s, v)
          = thresholdChildren rec lo hi (at_ p) l (s1, fun j => if j = i then w1 else v j) ∧
        w1 = (Rounded.recThreshold ρ lo hi (t.child i) (v i)).2 ∧
        Sub s1 (p ++ [i]) (Rounded.recThreshold ρ lo hi (t.child i) (v i)).1 ∧ Frame s s1 (p ++ [i]) := by
      have hg := getChild_local (i := i) hs hsi
      by_cases hx : t.hasChildrenArray = true ∧ ((at_ (p ++ [i])).depth = 0 → (t.child i).isNil = false)
      · rw [if_pos hx] at hg
        obtain ⟨s', w, h1, h2, h3, h4⟩ := hrec hx.1 i s hsi (child_live_local hsi hl hx.2) (v i) (hv i (List.mem_cons_self ..))
        refine ⟨s', w, ?_, h2, h3, h4⟩
        rw [thresholdChildren, hg]
        simp only [h1]
      · rw [if_neg hx] at hg
        have hnil : t.child i = .nil := by
          by_contra hn
          exact hx ⟨by cases t <;> simp_all [NTree.hasChildrenArray], fun _ => NTree.isNil_false.2 hn⟩
        refine ⟨s, clamp lo hi (v i), ?_, ?_, ?_, Chunks.Frame.refl _ _ _⟩
        · rw [thresholdChildren, hg]
        · rw [hnil]; rfl
        · rw [hnil] at hsi ⊢; exact hsi
    obtain ⟨s1, w1, e, h1, h2, h3⟩ := step
    have hlp : s1.live (at_ p) = true := by rw [Chunks.Frame.live h3 (snoc_not_prefix p i)]; exact hl
    have hsl : s1.slot zeroDetails 3 (at_ p) = s.slot zeroDetails 3 (at_ p) := Chunks.Frame.slot h3
    obtain ⟨s2, w2, g1, g2, g3, g4, g5, g6, g7⟩ := ih hnd' s1 (fun j => if j = i then w1 else v j) (fun j hj => by rw [if_neg (by rintro rfl; exact hil hj)]; exact hv j (List.mem_cons_of_mem _ hj)) (by rw [hsl]; exact hs) hlp
      (fun j hj => Chunks.Frame.sub h3 (by rintro rfl; exact hil hj) (hsub j (List.mem_cons_of_mem _ hj)))
    refine ⟨s2, w2, e.trans g1, ?_, ?_, ?_, g5.trans hsl, g6, h3.widen.trans g7⟩
    · intro j
      rw [g2 j]
      by_cases hj : j = i
      · subst hj; rw [if_neg hil, if_pos rfl, if_pos (List.mem_cons_self ..)]; exact h1
      · by_cases hl' : j ∈ l
        · rw [if_pos hl', if_neg hj, if_pos (List.mem_cons_of_mem _ hl')]
        · rw [if_neg hl', if_neg hj, if_neg (fun h => hl' ((List.mem_cons.1 h).resolve_left hj))]
    · intro j hj
      by_cases hji : j = i
      · subst hji
        exact g4 j hil _ h2
      · have hj' : j ∈ l := by simpa [hji] using hj
        have := g3 j hj'
        rwa [if_neg hji] at this
    · intro j hj u hu
      have hji : j ≠ i := by rintro rfl; exact hj (List.mem_cons_self ..)
      exact g4 j (fun h => hj (List.mem_cons_of_mem _ h)) u (Chunks.Frame.sub h3 hji hu)

theorem recThreshold_sim {lo hi : ℚ} (hlo : Fixed ρ lo) (hhi : Fixed ρ hi) (fuel : Nat) : ∀ (t : WTree) (k : Nat) p, t.DepthLe k → k < fuel →
    ThrCall ρ lo hi (Chunked.recThreshold ρ lo hi fuel) p t := by
  induction fuel with
  | zero => intro t k p _ h; omega
  | succ fuel ih =>
    intro t k p hk hfuel s hs hl v hv
    have hrec : t.hasChildrenArray = true → ∀ i, ThrCall ρ lo hi (Chunked.recThreshold ρ lo hi fuel) (p ++ [i]) (t.child i) := by
      intro ha i
      have hpos := hk.pos (by rintro rfl; simp [NTree.hasChildrenArray] at ha)
      exact ih (t.child i) (k - 1) _ (hk.child' i) (by omega)
    have hslot := hs.slot
    obtain ⟨s', w, h1, h2, h3, -, h5, h6, h7⟩ := thresholdChildren_sim hrec (List.finRange (2 ^ 3)) (List.nodup_finRange _) s
      (backward ρ ⟨v, WTree.details t⟩) (fun j _ => backward_isFloat _ j) (by rw [hslot]) hl (fun j _ => hs.child j)
    have hw : w = fun j => (Rounded.recThreshold ρ lo hi (t.child j) (backward ρ ⟨v, WTree.details t⟩ j)).2 := by
      funext j
      rw [h2 j, if_pos (List.mem_finRange j)]
    refine ⟨s'.setData 3 (at_ p) (forward ρ w).details, (forward ρ w).scale, ?_, ?_, ?_, ?_⟩
    · rw [Chunked.recThreshold, hs.details, h1]
    · by_cases ht : t = .nil
      · subst ht
        have : w = fun _ => clamp lo hi v := by
          rw [hw]; funext j
          have : backward ρ ⟨v, WTree.details .nil⟩ j = v := backward_zero hv j
          rw [this]; rfl
        rw [this, forward_const (clamp_isFloat hlo hhi hv)]; rfl
      · rw [Rounded.anyThreshold_scale lo hi t ht, hw]
    · apply Chunks.Sub.assemble
      · rw [setData_slot_self hd3 hc3 hc3' _ _ h6, h5, hslot]
        by_cases ht : t = .nil
        · subst ht
          have : w = fun _ => clamp lo hi v := by
            rw [hw]; funext j
            have : backward ρ ⟨v, WTree.details .nil⟩ j = v := backward_zero hv j
            rw [this]; rfl
          rw [this, forward_const (clamp_isFloat hlo hhi hv)]; rfl
        · rw [data_getD (Rounded.recThreshold ρ lo hi t v).1, Rounded.anyThreshold_details lo hi t ht, hw]
          have : (Rounded.recThreshold ρ lo hi t v).1.hasChildrenArray = t.hasChildrenArray := by
            cases t <;> rfl
          rw [this]
      · intro h0
        rw [live_setData, h6]
        have h8 := hs.root_live h0
        rw [hl] at h8
        have : (Rounded.recThreshold ρ lo hi t v).1.isNil = t.isNil := by cases t <;> rfl
        rw [this]; exact h8
      · intro j
        rw [Rounded.anyThreshold_child]
        apply setData_sub_child hd3 hc3 hc3'
        exact h3 j (List.mem_finRange j)
    · exact h7.trans (setData_frame hd3 hc3 hc3' _ _ _ _)

/-! ## Pruning -/

/-- What a recursive call on a child promises. -/
def PruneCall (ρ : ℚ → ℚ) (rec : WChunks → ChunkNode → Option WChunks) (p : List (Fin (2 ^ 3))) (t : WTree) : Prop :=
  ∀ s, Sub s p t → s.live (at_ p) = true → ∃ s', rec s (at_ p) = some s' ∧ Sub s' p (Rounded.recPrune ρ t) ∧ Frame s s' p

/-- The child as its parent keeps it. -/
def keptChild (ρ : ℚ → ℚ) (t : WTree) : WTree := if Rounded.keepChild ρ (Rounded.recPrune ρ t) then Rounded.recPrune ρ t else .nil

theorem pruneChildren_sim {rec p} {t : WTree}
    (hrec : t.hasChildrenArray = true → ∀ i, PruneCall ρ rec (p ++ [i]) (t.child i)) (l : List (Fin (2 ^ 3))) (hnd : l.Nodup) :
    ∀ (s : WChunks) (b : Bool), (s.slot zeroDetails 3 (at_ p)).2 = t.hasChildrenArray →
      s.live (at_ p) = true → (∀ j ∈ l, Sub s (p ++ [j]) (t.child j)) →
    ∃ s' b', Chunked.pruneChildren ρ rec (at_ p) l (s, b) = some (s', b') ∧
      b' = (b || l.any fun j => Rounded.keepChild ρ (Rounded.recPrune ρ (t.child j))) ∧
      (∀ j ∈ l, Sub s' (p ++ [j]) (keptChild ρ (t.child j))) ∧
      (∀ j, j ∉ l → ∀ u, Sub s (p ++ [j]) u → Sub s' (p ++ [j]) u) ∧
      s'.slot zeroDetails 3 (at_ p) = s.slot zeroDetails 3 (at_ p) ∧ s'.live (at_ p) = true ∧ Frame s s' p := by
  induction l with
  | nil =>
    intro s b hs hl _
    exact ⟨s, b, rfl, by simp, fun j hj => by simp at hj, fun j _ u h => h, rfl, hl, Chunks.Frame.refl _ _ _⟩
  | cons i l ih =>
    intro s b hs hl hsub
    have hil : i ∉ l := (List.nodup_cons.mp hnd).1
    have hnd' := (List.nodup_cons.mp hnd).2
    have hi := hsub i (List.mem_cons_self ..)
    have step : ∃ s1 b1, Chunked.pruneChildren ρ rec (at_ p) (i :: l) (s, b) = Chunked.pruneChildren ρ rec (at_ p) l (s1, b1) ∧
        b1 = (b || Rounded.keepChild ρ (Rounded.recPrune ρ (t.child i))) ∧
        Sub s1 (p ++ [i]) (keptChild ρ (t.child i)) ∧ Frame s s1 (p ++ [i]) := by
      have hg := getChild_local (i := i) hs hi
      by_cases hx : t.hasChildrenArray = true ∧ ((at_ (p ++ [i])).depth = 0 → (t.child i).isNil = false)
      · rw [if_pos hx] at hg
        obtain ⟨s', h1, h2, h3⟩ := hrec hx.1 i s hi (child_live_local hi hl hx.2)
        have hfl : s'.hasAtLeastOneChild 3 (at_ (p ++ [i])) = (Rounded.recPrune ρ (t.child i)).hasChildrenArray := h2.flag
        have hdt : WChunks.details s' (at_ (p ++ [i])) = WTree.details (Rounded.recPrune ρ (t.child i)) := h2.details
        have hkeep : Rounded.keepChild ρ (Rounded.recPrune ρ (t.child i))
            = !(!s'.hasAtLeastOneChild 3 (at_ (p ++ [i])) &&
                !WTree.nonzeroData (ρ (1 / 1000)) (WChunks.details s' (at_ (p ++ [i])))) := by
          rw [hfl, hdt, Rounded.keepChild]
          cases hn : Rounded.recPrune ρ (t.child i) with
          | nil =>
            have : WTree.nonzeroData (ρ (1 / 1000)) (WTree.details .nil) = false := nonzeroData_zero
            rw [this]; rfl
          | leaf a => simp [NTree.isNil]
          | node a ch => simp [NTree.isNil]
        have hbp : s'.hasAtLeastOneChild 3 (at_ p) = true := by
          rw [bit_slot zeroDetails, Chunks.Frame.slot h3, hs]; exact hx.1
        rw [Chunked.pruneChildren, hg]
        simp only [h1]
        split
        · rename_i hc
          rw [hc] at hkeep
          refine ⟨s'.eraseChild zeroDetails 3 chunkHeight (at_ p) i, b, rfl, ?_, ?_, ?_⟩
          · rw [hkeep]; simp
          · unfold keptChild
            rw [hkeep]
            exact erase_sub hd3 hc3 hc3' _ _ _ _ hbp
          · exact h3.trans (erase_frame hd3 hc3 hc3' _ _ _ _ hbp)
        · rename_i hc
          have hc' : (!s'.hasAtLeastOneChild 3 (at_ (p ++ [i])) &&
                !WTree.nonzeroData (ρ (1 / 1000)) (WChunks.details s' (at_ (p ++ [i])))) = false := by
            cases hz : (!s'.hasAtLeastOneChild 3 (at_ (p ++ [i])) &&
                !WTree.nonzeroData (ρ (1 / 1000)) (WChunks.details s' (at_ (p ++ [i])))) with
            | false => rfl
            | true => exact absurd hz hc
          rw [hc'] at hkeep
          refine ⟨s', true, rfl, ?_, ?_, h3⟩
          · rw [hkeep]; simp
          · unfold keptChild
            rw [hkeep]; exact h2
      · rw [if_neg hx] at hg
        have hnil : t.child i = .nil := by
          by_contra hn
          exact hx ⟨by cases t <;> simp_all [NTree.hasChildrenArray], fun _ => NTree.isNil_false.2 hn⟩
        refine ⟨s, b, ?_, ?_, ?_, Chunks.Frame.refl _ _ _⟩
        · rw [Chunked.pruneChildren, hg]
        · rw [hnil]; simp [Rounded.recPrune, Rounded.keepChild, NTree.isNil]
        · rw [hnil] at hi ⊢; exact hi
    obtain ⟨s1, b1, e, h1, h2, h3⟩ := step
    have hlp : s1.live (at_ p) = true := by rw [Chunks.Frame.live h3 (snoc_not_prefix p i)]; exact hl
    have hsl : s1.slot zeroDetails 3 (at_ p) = s.slot zeroDetails 3 (at_ p) := Chunks.Frame.slot h3
    obtain ⟨s2, b2, g1, g2, g3, g4, g5, g6, g7⟩ := ih hnd' s1 b1 (by rw [hsl]; exact hs) hlp
      (fun j hj => Chunks.Frame.sub h3 (by rintro rfl; exact hil hj) (hsub j (List.mem_cons_of_mem _ hj)))
    refine ⟨s2, b2, e.trans g1, ?_, ?_, ?_, g5.trans hsl, g6, h3.widen.trans g7⟩
    · rw [g2, h1, List.any_cons, Bool.or_assoc]
    · intro j hj
      by_cases hji : j = i
      · subst hji
        exact g4 j hil _ h2
      · have hj' : j ∈ l := by simpa [hji] using hj
        exact g3 j hj'
    · intro j hj u hu
      have hji : j ≠ i := by rintro rfl; exact hj (List.mem_cons_self ..)
      exact g4 j (fun h => hj (List.mem_cons_of_mem _ h)) u (Chunks.Frame.sub h3 hji hu)

theorem recPrune_sim (fuel : Nat) : ∀ (t : WTree) (k : Nat) p, t.DepthLe k → k < fuel → PruneCall ρ (Chunked.recPrune ρ fuel) p t := by
  induction fuel with
  | zero => intro t k p _ h; omega
  | succ fuel ih =>
    intro t k p hk hfuel s hs hl
    have hrec : t.hasChildrenArray = true → ∀ i, PruneCall ρ (Chunked.recPrune ρ fuel) (p ++ [i]) (t.child i) := by
      intro ha i
      have hpos := hk.pos (by rintro rfl; simp [NTree.hasChildrenArray] at ha)
      exact ih (t.child i) (k - 1) _ (hk.child' i) (by omega)
    have hslot := hs.slot
    obtain ⟨s', b', h1, h2, h3, -, h5, h6, h7⟩ := pruneChildren_sim hrec (List.finRange (2 ^ 3)) (List.nodup_finRange _) s
      false (by rw [hslot]) hl (fun j _ => hs.child j)
    rw [Bool.false_or] at h2
    have harr : b' = (Rounded.recPrune ρ t).hasChildrenArray := by
      rw [h2]
      cases t with
      | nil =>
        have : ∀ j, Rounded.keepChild ρ (Rounded.recPrune ρ ((NTree.nil : WTree).child j)) = false := fun j => rfl
        simp only [this]
        rfl
      | leaf a =>
        have : ∀ j, Rounded.keepChild ρ (Rounded.recPrune ρ ((NTree.leaf a : WTree).child j)) = false := fun j => rfl
        simp only [this]
        rfl
      | node a ch =>
        rw [Rounded.recPrune]
        simp only [NTree.child_node]
        split
        · rename_i hx; rw [hx]; rfl
        · rename_i hx
          cases hy : (List.finRange (2 ^ 3)).any fun j => Rounded.keepChild ρ (Rounded.recPrune ρ (ch j)) with
          | false => rfl
          | true => exact absurd hy hx
    have hdata : (Rounded.recPrune ρ t).data? = t.data? := by
      cases t with
      | nil => rfl
      | leaf a => rfl
      | node a ch => rw [Rounded.recPrune]; split <;> rfl
    have hchild : ∀ j, (Rounded.recPrune ρ t).child j = keptChild ρ (t.child j) := by
      intro j
      cases t with
      | nil => rfl
      | leaf a => rfl
      | node a ch =>
        rw [Rounded.recPrune]
        split
        · rfl
        · rename_i hx
          have : Rounded.keepChild ρ (Rounded.recPrune ρ (ch j)) = false := by
            cases hy : Rounded.keepChild ρ (Rounded.recPrune ρ (ch j)) with
            | false => rfl
            | true => exact absurd (List.any_eq_true.2 ⟨j, List.mem_finRange j, hy⟩) hx
          unfold keptChild
          simp only [NTree.child_leaf, NTree.child_node, this]; rfl
    have hnil : (Rounded.recPrune ρ t).isNil = t.isNil := by
      have : ∀ u : WTree, u.isNil = !u.data?.isSome := by intro u; cases u <;> rfl
      rw [this, this, hdata]
    refine ⟨s'.setHasAtLeastOneChild 3 (at_ p) b', ?_, ?_, h7.trans (setBit_frame hd3 hc3 hc3' _ _ _ _)⟩
    · rw [Chunked.recPrune, h1]
    · apply Chunks.Sub.assemble
      · rw [setBit_slot_self hd3 hc3 hc3' _ _ h6, h5, hslot, harr, hdata]
      · intro h0
        have e : (s'.setHasAtLeastOneChild 3 (at_ p) b').live (at_ p) = s'.live (at_ p) := setBit_live s' _ _ b'
        rw [e, h6, hnil]
        have h8 := hs.root_live h0
        rwa [hl] at h8
      · intro j
        rw [hchild]
        exact setBit_sub_child hd3 hc3 hc3' _ (h3 j (List.mem_finRange j))

/-! ## Leaves -/


end Chunked
end Rounded
end Wavemap
