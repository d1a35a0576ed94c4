import Verif.Model.OctreeIntegrators
import Verif.Lemmas.WaveletIntegrator
/-! Helper lemmas for C44: the wavelet integrator computes the update of each node as a difference. -/
namespace Wavemap
open Haar NTree

/-- The node, allocated if needed. -/
def allocd (node : WTree) : WTree := (NTree.node zeroDetails fun _ => node).getOrAllocateChild ⟨0, by decide⟩ zeroDetails

/-- What becomes of a node with value `v`: the node, its value and whether thresholding is needed. -/
def updAt (act : WTree → NdtreeIndex 3 → ℚ → ChildAction) (h : Nat) (node : WTree) (n : NdtreeIndex 3) (v : ℚ) : WTree × ℚ × Bool :=
  match act node n v with
  | .keep => (node, v, false)
  | .assign w b => (node, w, b)
  | .refine => updNode act h (allocd node) n v false

variable {act : WTree → NdtreeIndex 3 → ℚ → ChildAction}

theorem alloc_eq (t : WTree) (c : Fin (2 ^ 3)) : t.getOrAllocateChild c zeroDetails = allocd (t.child c) := by
  unfold allocd NTree.getOrAllocateChild
  rw [child_node]

theorem updChild_eq (h : Nat) (t : WTree) (n : NdtreeIndex 3) (w : Coeffs 3) (c : Fin (2 ^ 3)) :
    updChild act h t n w c = updAt act h (t.child c) (n.computeChildIndex c.val) (w c) := by
  unfold updChild updAt
  rw [alloc_eq]
  cases act (t.child c) (n.computeChildIndex c.val) (w c) <;> rfl

theorem alloc_getValue (node : WTree) (v : ℚ) (q) :
    WTree.getValue (allocd node) v q = WTree.getValue node v q := by
  have := WTree.getOrAllocate_getValue (NTree.node zeroDetails fun _ => node) ⟨0, by decide⟩ v q
  exact this

theorem alloc_descend (node : WTree) (q) (hq : q ≠ []) :
    (allocd node).descend q = node.descend q :=
  getOrAllocate_descend (NTree.node zeroDetails fun _ => node) ⟨0, by decide⟩ zeroDetails q hq

theorem alloc_ne_nil (node : WTree) : allocd node ≠ .nil := getOrAllocateChild_ne_nil _ _ _

/-- The value of a cell below a node, if the recursion stops at the cell's ancestor of height `s`. -/
theorem updAt_cell (j : Index 3) (s h : Nat) (node : WTree) (v : ℚ) (hs : s ≤ h)
    (href : ∀ k, s < k → k ≤ h → act (node.descend ((cellPath h j).take (h - k))) (indexAndHeightToNodeIndex j k)
      (node.getValue v ((cellPath h j).take (h - k))) = .refine) :
    (∀ w b', act (node.descend ((cellPath h j).take (h - s))) (indexAndHeightToNodeIndex j s)
      (node.getValue v ((cellPath h j).take (h - s))) = .assign w b' →
      WTree.getValue (updAt act h node (indexAndHeightToNodeIndex j h) v).1
        (updAt act h node (indexAndHeightToNodeIndex j h) v).2.1 (cellPath h j) =
        node.getValue v (cellPath h j) + (w - node.getValue v ((cellPath h j).take (h - s)))) ∧
    (act (node.descend ((cellPath h j).take (h - s))) (indexAndHeightToNodeIndex j s)
      (node.getValue v ((cellPath h j).take (h - s))) = .keep →
      WTree.getValue (updAt act h node (indexAndHeightToNodeIndex j h) v).1
        (updAt act h node (indexAndHeightToNodeIndex j h) v).2.1 (cellPath h j) = node.getValue v (cellPath h j)) := by
  by_cases hsh : s = h
  · subst hsh
    simp only [Nat.sub_self, List.take_zero, WTree.getValue_nil_path, descend_nil']
    constructor
    · intro w b' ha
      unfold updAt
      rw [ha]
      dsimp only
      rw [← WTree.getValue_shift]
      congr 1
      ring
    · intro ha
      unfold updAt
      rw [ha]
  · have hlt : s < h := by omega
    have ha := href h hlt (le_refl _)
    simp only [Nat.sub_self, List.take_zero, WTree.getValue_nil_path, descend_nil'] at ha
    have hu : updAt act h node (indexAndHeightToNodeIndex j h) v =
        updNode act h (allocd node) (indexAndHeightToNodeIndex j h) v false := by
      unfold updAt
      rw [ha]
    rw [hu]
    have hlen : ∀ k, k < h → (cellPath h j).take (h - k) ≠ [] := by
      intro k hk he
      have := congrArg List.length he
      rw [List.length_take, cellPath_length, List.length_nil] at this
      omega
    have key := updNode_cell (act := act) j s h (allocd node) v false (alloc_ne_nil node) hlt (by
      intro k h1 h2
      rw [alloc_getValue, alloc_descend _ _ (hlen k h2)]
      exact href k h1 (le_of_lt h2))
    simp only [alloc_getValue, alloc_descend _ _ (hlen s hlt)] at key
    exact key

theorem updAt_depth (hT : ∀ node n v, act node n v = .refine → 0 < n.height) (h : Nat) (node : WTree) (n : NdtreeIndex 3) (v : ℚ) (hn : n.height = h)
    (hd : WTree.DepthLe h node) : WTree.DepthLe h (updAt act h node n v).1 := by
  unfold updAt
  split
  · exact hd
  · exact hd
  · rename_i ha
    have hpos := hT _ _ _ ha
    obtain ⟨h, rfl⟩ : ∃ k, h = k + 1 := ⟨h - 1, by omega⟩
    refine updNode_depth hT _ _ _ _ _ hn (alloc_ne_nil node) ?_
    have : WTree.DepthLe (h + 2) (NTree.node zeroDetails fun _ => node) := fun _ => hd
    exact this.getOrAllocate ⟨0, by decide⟩ zeroDetails

/-- What a call with a parent node does. -/
def stepAt (act : WTree → NdtreeIndex 3 → ℚ → ChildAction) (h : Nat) (n : NdtreeIndex 3) (v : ℚ) (parent : WTree) (c : Fin (2 ^ 3)) : WTree × ℚ :=
  match act (parent.child c) n v with
  | .keep => (parent, v)
  | .assign w _ => (parent, w)
  | .refine =>
    ((parent.setChild c (updNode act h (parent.getOrAllocateChild c zeroDetails) n v false).1),
      (updNode act h (parent.getOrAllocateChild c zeroDetails) n v false).2.1)

theorem stepAt_ne_nil (h : Nat) (n : NdtreeIndex 3) (v : ℚ) (parent : WTree) (hp : parent ≠ .nil) (c : Fin (2 ^ 3)) : (stepAt act h n v parent c).1 ≠ .nil := by
  unfold stepAt
  split
  · exact hp
  · exact hp
  · exact setChild_ne_nil _ hp _ _

theorem details_setChild (t : WTree) (c : Fin (2 ^ 3)) (u : WTree) : WTree.details (t.setChild c u) = WTree.details t := by
  cases t <;> rfl

theorem stepAt_spec (h : Nat) (n : NdtreeIndex 3) (v : ℚ) (parent : WTree) (hp : parent ≠ .nil) (c : Fin (2 ^ 3)) :
    WTree.details (stepAt act h n v parent c).1 = WTree.details parent ∧
    (stepAt act h n v parent c).2 = (updAt act h (parent.child c) n v).2.1 ∧
    ∀ c', (stepAt act h n v parent c).1.child c' = if c' = c then (updAt act h (parent.child c) n v).1 else parent.child c' := by
  unfold stepAt updAt
  cases act (parent.child c) n v with
  | keep => exact ⟨rfl, rfl, fun c' => by dsimp only; split <;> simp_all⟩
  | assign w b => exact ⟨rfl, rfl, fun c' => by dsimp only; split <;> simp_all⟩
  | refine => exact ⟨details_setChild _ _ _, by dsimp only; rw [alloc_eq], fun c' => by dsimp only; rw [setChild_child _ hp, alloc_eq]⟩

theorem fwd3_diff (s : ℚ) (a : Details 3) (x : Coeffs 3) :
    forward 3 (fun c => x c - backward 3 ⟨s, a⟩ c) = ⟨(forward 3 x).scale - s, fun i => (forward 3 x).details i - a i⟩ := by
  have h1 := WTree.fwd3_sub s a x
  have h2 : backward 3 (⟨(forward 3 x).scale - s, fun i => (forward 3 x).details i - a i⟩ : Parent 3)
      = fun c => x c - backward 3 ⟨s, a⟩ c := by
    funext c
    have h3 := congrFun (congrArg (backward 3) h1) c
    rw [C10_backward_forward 3 h3'] at h3
    simp only [bwd3_single] at h3 ⊢
    have hz : (⟨(forward 3 x).scale - s, fun i => (forward 3 x).details i - a i⟩ : Parent 3).add
        ⟨s - (forward 3 x).scale, fun i => a i - (forward 3 x).details i⟩ = ⟨0, fun _ => 0⟩ := by
      simp [Parent.add]
    have h4 := bwd_single_add (⟨(forward 3 x).scale - s, fun i => (forward 3 x).details i - a i⟩ : Parent 3)
      ⟨s - (forward 3 x).scale, fun i => a i - (forward 3 x).details i⟩ c
    rw [hz, bwd_single_const] at h4
    linarith
  rw [← h2, C10_forward_backward 3 h3']
where h3' : 1 ≤ 3 ∧ 3 ≤ 3 := by decide

section
variable {scan : Scan} {lo hi : ℚ} {T : Int}

theorem childAction_eq (scan : Scan) (lo hi : ℚ) (T : Int) (node : WTree) (n : NdtreeIndex 3) (v : ℚ) : childAction scan lo hi T node n v =
    if n.height ≤ T then .assign (clamp (lo - noiseThreshold) (hi + noiseThreshold) (scan.sample n + v)) false
    else if scan.updateType n = .fullyUnobserved then .keep
    else if scan.updateType n ≠ .possiblyOccupied ∧ v < lo + noiseThreshold / 10 then .keep
    else if scan.coarseEnough (scan.updateType n) n then
      if node.isNil || !node.hasAtLeastOneChild then .assign (clamp (lo - noiseThreshold) (hi + noiseThreshold) (scan.sample n + v)) false
      else .assign (scan.sample n + v) true
    else .refine := rfl

theorem samplerChildren_spec (h : Nat) (n : NdtreeIndex 3) (w : Coeffs 3) (rec : NdtreeIndex 3 → ℚ → WTree → Fin (2 ^ 3) → Option (WTree × ℚ))
    (hrec : ∀ v parent c, rec (n.computeChildIndex c.val) v parent c =
      some ((stepAt act h (n.computeChildIndex c.val) v parent c).1, (stepAt act h (n.computeChildIndex c.val) v parent c).2 - v))
    (l : List (Fin (2 ^ 3))) : l.Nodup → ∀ (x : WTree × Coeffs 3 × Bool), (∀ c ∈ l, x.2.1 c = w c) →
    samplerChildren rec n w l (x.1, fun c => x.2.1 c - w c) =
      some ((l.foldl (updStep act (updNode act h) n) x).1, fun c => (l.foldl (updStep act (updNode act h) n) x).2.1 c - w c) := by
  induction l with
  | nil => intro _ x _; rfl
  | cons c l ih =>
    intro hl x hx
    rw [List.nodup_cons] at hl
    have hw := hx c (List.mem_cons_self ..)
    have h1 : (stepAt act h (n.computeChildIndex c.val) (w c) x.1 c).1 = (updStep act (updNode act h) n x c).1 := by
      unfold stepAt updStep
      rw [hw]
      cases act (x.1.child c) (n.computeChildIndex c.val) (w c) with
      | keep => rfl
      | assign v b => rfl
      | refine => dsimp only; rw [updNode_flag h _ _ _ x.2.2]
    have h2 : (stepAt act h (n.computeChildIndex c.val) (w c) x.1 c).2 = (updStep act (updNode act h) n x c).2.1 c := by
      unfold stepAt updStep
      rw [hw]
      cases act (x.1.child c) (n.computeChildIndex c.val) (w c) with
      | keep => exact hw.symm
      | assign v b => simp
      | refine => dsimp only; rw [updNode_flag h _ _ _ x.2.2]; simp
    have h4 : ∀ c', c' ≠ c → (updStep act (updNode act h) n x c).2.1 c' = x.2.1 c' := by
      intro c' hc'
      unfold updStep
      cases act (x.1.child c) (n.computeChildIndex c.val) (x.2.1 c) with
      | keep => rfl
      | assign v b => simp [hc']
      | refine => simp [hc']
    rw [samplerChildren, hrec, List.foldl_cons]
    dsimp only
    rw [← ih hl.2 (updStep act (updNode act h) n x c) (fun c' hc' => by
      rw [h4 c' (fun e => hl.1 (e ▸ hc'))]
      exact hx c' (List.mem_cons_of_mem _ hc')), h1, h2]
    congr 2
    funext c'
    by_cases hc' : c' = c
    · rw [if_pos hc', hc']
    · rw [if_neg hc', h4 c' hc']

theorem updFold_details (rec : WTree → NdtreeIndex 3 → ℚ → Bool → WTree × ℚ × Bool) (n : NdtreeIndex 3) (l : List (Fin (2 ^ 3))) :
    ∀ x : WTree × Coeffs 3 × Bool, WTree.details (l.foldl (updStep act rec n) x).1 = WTree.details x.1 := by
  induction l with
  | nil => intro x; rfl
  | cons c l ih =>
    intro x
    rw [List.foldl_cons, ih]
    unfold updStep
    split
    · rfl
    · rfl
    · exact details_setChild _ _ _

theorem recursiveSampler_spec (hT : 0 ≤ T) (fuel : Nat) : ∀ (h : Nat) (n : NdtreeIndex 3), h < fuel → n.height = h →
    ∀ (v : ℚ) (parent : WTree) (c : Fin (2 ^ 3)),
    recursiveSampler scan lo hi T fuel n v parent c =
      some ((stepAt (childAction scan lo hi T) h n v parent c).1, (stepAt (childAction scan lo hi T) h n v parent c).2 - v) := by
  induction fuel with
  | zero => intro h n hh; omega
  | succ fuel ih =>
    intro h n hh hn v parent c
    rw [recursiveSampler]
    unfold stepAt
    have hact := childAction_eq scan lo hi T (parent.child c) n v
    by_cases h1 : n.height ≤ T
    · rw [if_pos h1] at hact ⊢
      rw [hact]
    · rw [if_neg h1] at hact ⊢
      by_cases h2 : scan.updateType n = .fullyUnobserved
      · rw [if_pos h2] at hact ⊢
        rw [hact]; simp
      · rw [if_neg h2] at hact ⊢
        by_cases h3 : scan.updateType n ≠ .possiblyOccupied ∧ v < lo + noiseThreshold / 10
        · rw [if_pos h3] at hact ⊢
          rw [hact]; simp
        · rw [if_neg h3] at hact ⊢
          by_cases h4 : scan.coarseEnough (scan.updateType n) n = true
          · rw [if_pos h4] at hact ⊢
            by_cases h5 : ((parent.child c).isNil || !(parent.child c).hasAtLeastOneChild) = true
            · rw [if_pos h5] at hact ⊢
              rw [hact]
            · rw [if_neg h5] at hact ⊢
              rw [hact]; simp
          · rw [if_neg h4] at hact ⊢
            rw [hact]
            dsimp only
            obtain ⟨h, rfl⟩ : ∃ k, h = k + 1 := ⟨h - 1, by omega⟩
            have hs := samplerChildren_spec (act := childAction scan lo hi T) h n
              (backward 3 ⟨v, WTree.details (parent.getOrAllocateChild c zeroDetails)⟩) (recursiveSampler scan lo hi T fuel)
              (fun v parent c => ih h (n.computeChildIndex c.val) (by omega) (by show n.height - 1 = _; omega) v parent c)
              (List.finRange (2 ^ 3)) (List.nodup_finRange _)
              (parent.getOrAllocateChild c zeroDetails, backward 3 ⟨v, WTree.details (parent.getOrAllocateChild c zeroDetails)⟩, false)
              (fun _ _ => rfl)
            dsimp only at hs
            simp only [sub_self] at hs
            rw [hs]
            dsimp only
            rw [fwd3_diff, updFold_details]
            simp only [updNode, add_sub_cancel]
end

end Wavemap
