import Verif.Model.WaveletIntegrator
import Verif.Lemmas.SubtreeIterator
import Verif.Lemmas.HashedWavelet
import Mathlib.Tactic.Linarith
import Mathlib.Tactic.NormNum
/-! Helper lemmas for C44: the stack loop of the block update is a recursion over the tree. -/
namespace Wavemap
open Haar NTree

/-- One child of the recursion. -/
def updStep (act : WTree → NdtreeIndex 3 → ℚ → ChildAction) (rec : WTree → NdtreeIndex 3 → ℚ → Bool → WTree × ℚ × Bool) (n : NdtreeIndex 3)
    (x : WTree × Coeffs 3 × Bool) (c : Fin (2 ^ 3)) : WTree × Coeffs 3 × Bool :=
  match act (x.1.child c) (n.computeChildIndex c.val) (x.2.1 c) with
  | .keep => x
  | .assign v b => (x.1, fun c' => if c' = c then v else x.2.1 c', x.2.2 || b)
  | .refine =>
    let r := rec (x.1.getOrAllocateChild c zeroDetails) (n.computeChildIndex c.val) (x.2.1 c) x.2.2
    (x.1.setChild c r.1, fun c' => if c' = c then r.2.1 else x.2.1 c', r.2.2)

/-- The recursion the loop performs. -/
def updNode (act : WTree → NdtreeIndex 3 → ℚ → ChildAction) : Nat → WTree → NdtreeIndex 3 → ℚ → Bool → WTree × ℚ × Bool
  | 0, t, _, v, b => (t, v, b)
  | h + 1, t, n, v, b =>
    let x := (List.finRange (2 ^ 3)).foldl (updStep act (updNode act h) n) (t, backward 3 ⟨v, WTree.details t⟩, b)
    let p := forward 3 x.2.1
    (x.1.setData p.details, p.scale, x.2.2)

variable {act : WTree → NdtreeIndex 3 → ℚ → ChildAction}

theorem updStep_ne_nil {rec : WTree → NdtreeIndex 3 → ℚ → Bool → WTree × ℚ × Bool} {n : NdtreeIndex 3}
    {x : WTree × Coeffs 3 × Bool} {c : Fin (2 ^ 3)} (h : x.1 ≠ .nil) : (updStep act rec n x c).1 ≠ .nil := by
  unfold updStep
  split
  · exact h
  · exact h
  · exact setChild_ne_nil _ h _ _

theorem updFold_ne_nil {rec : WTree → NdtreeIndex 3 → ℚ → Bool → WTree × ℚ × Bool} {n : NdtreeIndex 3} (l : List (Fin (2 ^ 3)))
    {x : WTree × Coeffs 3 × Bool} (h : x.1 ≠ .nil) : (l.foldl (updStep act rec n) x).1 ≠ .nil := by
  induction l generalizing x with
  | nil => exact h
  | cons c l ih => exact ih (updStep_ne_nil h)

theorem updNode_ne_nil (h : Nat) {t : WTree} (ht : t ≠ .nil) (n : NdtreeIndex 3) (v : ℚ) (b : Bool) :
    (updNode act h t n v b).1 ≠ .nil := by
  cases h with
  | zero => exact ht
  | succ h => exact WTree.setData_ne_nil _ (updFold_ne_nil _ ht) _

/-- What the loop does after it popped a frame. -/
def popTo (scan : Scan) (lo hi : ℚ) (T : Int) (fuel : Nat) (t : WTree) (scale : ℚ) (b : Bool) : List UpdateFrame → Option (WTree × ℚ × Bool)
  | [] => some (t, scale, b)
  | g :: stack => updateLoop scan lo hi T fuel t b ({ g with scales := fun c => if c.val = g.next - 1 then scale else g.scales c } :: stack)

section
variable {scan : Scan} {lo hi : ℚ} {T : Int}

theorem updateLoop_pop (fuel : Nat) (t : WTree) (b : Bool) (f : UpdateFrame) (hf : ¬ f.next < 2 ^ 3) (stack : List UpdateFrame) :
    updateLoop scan lo hi T (fuel + 1) t b (f :: stack) =
      popTo scan lo hi T fuel (t.modifyAt (fun s => s.setData (forward 3 f.scales).details) f.path) (forward 3 f.scales).scale b stack := by
  rw [updateLoop.eq_def]
  dsimp only
  rw [dif_neg hf]
  cases stack <;> rfl

theorem finRange_drop (k : Nat) (hk : k < 2 ^ 3) : (List.finRange (2 ^ 3)).drop k = ⟨k, hk⟩ :: (List.finRange (2 ^ 3)).drop (k + 1) := by
  rw [List.drop_eq_getElem_cons (by rw [List.length_finRange]; exact hk)]
  congr 1
  exact List.getElem_finRange _

theorem plug_descend (t : WTree) (p : List (Fin (2 ^ 3))) (s : WTree) (h : t.descend p ≠ .nil) (q : List (Fin (2 ^ 3))) :
    (t.modifyAt (fun _ => s) p).descend (p ++ q) = s.descend q := by
  rw [modifyAt_descend, if_neg]
  rw [Bool.not_eq_true]
  exact isNil_false_iff.2 h

theorem plug_modify (t : WTree) (p : List (Fin (2 ^ 3))) {s : WTree} (hs : s ≠ .nil) (f : WTree → WTree) :
    (t.modifyAt (fun _ => s) p).modifyAt f p = t.modifyAt (fun _ => f s) p :=
  modifyAt_modifyAt f (fun _ => s) (fun _ _ => hs) t p

theorem plug_plug (t : WTree) (p : List (Fin (2 ^ 3))) {s : WTree} (hs : s ≠ .nil) (q : List (Fin (2 ^ 3))) (f : WTree → WTree) :
    (t.modifyAt (fun _ => s) p).modifyAt f (p ++ q) = t.modifyAt (fun _ => s.modifyAt f q) p := by
  rw [modifyAt_append]
  exact plug_modify t p hs fun s => s.modifyAt f q

theorem plug_self (t : WTree) (p : List (Fin (2 ^ 3))) : t.modifyAt (fun _ => t.descend p) p = t := by
  induction p generalizing t with
  | nil => cases t <;> rfl
  | cons i p ih =>
    cases t with
    | nil => rfl
    | leaf a => rfl
    | node a ch =>
      simp only [modifyAt, descend_cons]
      refine congrArg (node a) (funext fun j => ?_)
      by_cases hj : j = i
      · subst hj; rw [if_pos rfl]; exact ih _
      · rw [if_neg hj]

theorem setChild_modify (s : WTree) (hs : s ≠ .nil) (c : Fin (2 ^ 3)) (u r : WTree) (hu : u ≠ .nil) :
    (s.setChild c u).modifyAt (fun _ => r) [c] = s.setChild c r := by
  cases s with
  | nil => exact absurd rfl hs
  | leaf a =>
    simp only [setChild, modifyAt, if_true]
    refine congrArg (node a) (funext fun j => ?_)
    by_cases hj : j = c
    · rw [if_pos hj, if_pos hj]
    · rw [if_neg hj, if_neg hj, if_neg hj]
  | node a ch =>
    simp only [setChild, modifyAt, if_true]
    refine congrArg (node a) (funext fun j => ?_)
    by_cases hj : j = c
    · rw [if_pos hj, if_pos hj]
    · rw [if_neg hj, if_neg hj, if_neg hj]

theorem updateLoop_spec (hT : 0 ≤ T) (h : Nat) : 0 < h → ∀ (t : WTree) (p : List (Fin (2 ^ 3))) (n : NdtreeIndex 3) (v : ℚ) (b : Bool) (stack : List UpdateFrame),
    n.height = h → t.descend p ≠ .nil → ∃ k ≤ updateCost h, ∀ fuel,
      updateLoop scan lo hi T (fuel + k) t b (⟨p, n, 0, backward 3 ⟨v, WTree.details (t.descend p)⟩⟩ :: stack) =
        popTo scan lo hi T fuel (t.modifyAt (fun _ => (updNode (childAction scan lo hi T) h (t.descend p) n v b).1) p)
          (updNode (childAction scan lo hi T) h (t.descend p) n v b).2.1 (updNode (childAction scan lo hi T) h (t.descend p) n v b).2.2 stack := by
  induction h with
  | zero => intro h; cases h
  | succ h ih =>
    intro _ t p n v b stack hn ht
    -- the children from `j` on
    have hin : ∀ d j, j + d = 2 ^ 3 → ∀ (x : WTree × Coeffs 3 × Bool), x.1 ≠ .nil → ∃ k ≤ d * (1 + updateCost h), ∀ fuel,
        updateLoop scan lo hi T (fuel + k) (t.modifyAt (fun _ => x.1) p) x.2.2 (⟨p, n, j, x.2.1⟩ :: stack) =
          updateLoop scan lo hi T fuel
            (t.modifyAt (fun _ => (((List.finRange (2 ^ 3)).drop j).foldl (updStep (childAction scan lo hi T) (updNode (childAction scan lo hi T) h) n) x).1) p)
            (((List.finRange (2 ^ 3)).drop j).foldl (updStep (childAction scan lo hi T) (updNode (childAction scan lo hi T) h) n) x).2.2
            (⟨p, n, 2 ^ 3, (((List.finRange (2 ^ 3)).drop j).foldl (updStep (childAction scan lo hi T) (updNode (childAction scan lo hi T) h) n) x).2.1⟩ :: stack) := by
      intro d
      induction d with
      | zero =>
        intro j hj x hx
        obtain rfl : j = 2 ^ 3 := by omega
        exact ⟨0, by omega, fun fuel => rfl⟩
      | succ d ihd =>
        intro j hj x hx
        have hj' : j < 2 ^ 3 := by omega
        rw [finRange_drop j hj', List.foldl_cons]
        have hdesc : (t.modifyAt (fun _ => x.1) p).descend p = x.1 := by
          have := plug_descend t p x.1 ht []
          rwa [List.append_nil, descend_nil'] at this
        obtain ⟨k, hk, hloop⟩ := ihd (j + 1) (by omega) (updStep (childAction scan lo hi T) (updNode (childAction scan lo hi T) h) n x ⟨j, hj'⟩) (updStep_ne_nil hx)
        have hmul : (d + 1) * (1 + updateCost h) = d * (1 + updateCost h) + (1 + updateCost h) := by rw [Nat.add_mul, Nat.one_mul]
        have hcost : 0 ≤ updateCost h := Nat.zero_le _
        cases ha : childAction scan lo hi T (x.1.child ⟨j, hj'⟩) (n.computeChildIndex j) (x.2.1 ⟨j, hj'⟩) with
        | keep =>
          have hs : updStep (childAction scan lo hi T) (updNode (childAction scan lo hi T) h) n x ⟨j, hj'⟩ = x := by
            unfold updStep
            dsimp only
            rw [ha]
          rw [hs] at hloop ⊢
          refine ⟨k + 1, by omega, fun fuel => ?_⟩
          rw [← hloop fuel, show fuel + (k + 1) = fuel + k + 1 by omega, updateLoop.eq_def]
          dsimp only
          rw [dif_pos hj', hdesc, ha]
        | assign w b' =>
          have hs : updStep (childAction scan lo hi T) (updNode (childAction scan lo hi T) h) n x ⟨j, hj'⟩ =
              (x.1, fun c' => if c' = ⟨j, hj'⟩ then w else x.2.1 c', x.2.2 || b') := by
            unfold updStep
            dsimp only
            rw [ha]
          rw [hs] at hloop ⊢
          refine ⟨k + 1, by omega, fun fuel => ?_⟩
          rw [← hloop fuel, show fuel + (k + 1) = fuel + k + 1 by omega, updateLoop.eq_def]
          dsimp only
          rw [dif_pos hj', hdesc, ha]
        | refine =>
          have hpos : 0 < h := by
            have h1 : ¬ (n.computeChildIndex j).height ≤ T := by
              intro hle
              unfold childAction at ha
              dsimp only at ha
              rw [if_pos hle] at ha
              cases ha
            have h2 : (n.computeChildIndex j).height = n.height - 1 := rfl
            omega
          have hu : x.1.getOrAllocateChild ⟨j, hj'⟩ zeroDetails ≠ .nil := getOrAllocateChild_ne_nil _ _ _
          have hd2 : (t.modifyAt (fun _ => x.1.setChild ⟨j, hj'⟩ (x.1.getOrAllocateChild ⟨j, hj'⟩ zeroDetails)) p).descend (p ++ [⟨j, hj'⟩]) =
              x.1.getOrAllocateChild ⟨j, hj'⟩ zeroDetails := by
            rw [plug_descend _ _ _ ht, descend_cons, descend_nil', setChild_child _ hx, if_pos rfl]
          obtain ⟨k2, hk2, hl2⟩ := ih hpos
            (t.modifyAt (fun _ => x.1.setChild ⟨j, hj'⟩ (x.1.getOrAllocateChild ⟨j, hj'⟩ zeroDetails)) p) (p ++ [⟨j, hj'⟩])
            (n.computeChildIndex j) (x.2.1 ⟨j, hj'⟩) x.2.2 (⟨p, n, j + 1, x.2.1⟩ :: stack)
            (by show n.height - 1 = _; omega) (by rw [hd2]; exact hu)
          rw [hd2] at hl2
          have hs : updStep (childAction scan lo hi T) (updNode (childAction scan lo hi T) h) n x ⟨j, hj'⟩ =
              (x.1.setChild ⟨j, hj'⟩ (updNode (childAction scan lo hi T) h (x.1.getOrAllocateChild ⟨j, hj'⟩ zeroDetails) (n.computeChildIndex j) (x.2.1 ⟨j, hj'⟩) x.2.2).1,
                fun c' => if c' = ⟨j, hj'⟩ then
                  (updNode (childAction scan lo hi T) h (x.1.getOrAllocateChild ⟨j, hj'⟩ zeroDetails) (n.computeChildIndex j) (x.2.1 ⟨j, hj'⟩) x.2.2).2.1 else x.2.1 c',
                (updNode (childAction scan lo hi T) h (x.1.getOrAllocateChild ⟨j, hj'⟩ zeroDetails) (n.computeChildIndex j) (x.2.1 ⟨j, hj'⟩) x.2.2).2.2) := by
            unfold updStep
            dsimp only
            rw [ha]
          rw [hs] at hloop ⊢
          refine ⟨k + k2 + 1, by omega, fun fuel => ?_⟩
          rw [← hloop fuel, show fuel + (k + k2 + 1) = fuel + k + k2 + 1 by omega, updateLoop.eq_def]
          dsimp only
          rw [dif_pos hj', hdesc, ha]
          dsimp only
          rw [plug_modify t p hx, hd2, hl2]
          unfold popTo
          dsimp only
          rw [plug_plug t p (setChild_ne_nil _ hx _ _), setChild_modify _ hx _ _ _ hu]
          congr 3
          funext c
          rw [Nat.add_sub_cancel]
          simp only [Fin.ext_iff]
    obtain ⟨k, hk, hl⟩ := hin (2 ^ 3) 0 (by omega) (t.descend p, backward 3 ⟨v, WTree.details (t.descend p)⟩, b) ht
    rw [plug_self, List.drop_zero] at hl
    refine ⟨k + 1, ?_, fun fuel => ?_⟩
    · unfold updateCost; omega
    · rw [show fuel + (k + 1) = fuel + 1 + k by omega, hl (fuel + 1), updateLoop_pop _ _ _ _ (by show ¬ 2 ^ 3 < 2 ^ 3; omega)]
      dsimp only
      rw [plug_modify _ _ (updFold_ne_nil _ ht)]
      rfl

end

/-! ## The values after the recursion -/

theorem updNode_flag (h : Nat) : ∀ (t : WTree) (n : NdtreeIndex 3) (v : ℚ) (b : Bool),
    updNode act h t n v b =
      ((updNode act h t n v false).1, (updNode act h t n v false).2.1, b || (updNode act h t n v false).2.2) := by
  induction h with
  | zero => intro t n v b; simp [updNode]
  | succ h ih =>
    intro t n v b
    have hfold : ∀ (l : List (Fin (2 ^ 3))) (t : WTree) (w : Coeffs 3) (b b0 : Bool),
        l.foldl (updStep act (updNode act h) n) (t, w, b || b0) =
          ((l.foldl (updStep act (updNode act h) n) (t, w, b0)).1,
            (l.foldl (updStep act (updNode act h) n) (t, w, b0)).2.1,
            b || (l.foldl (updStep act (updNode act h) n) (t, w, b0)).2.2) := by
      intro l
      induction l with
      | nil => intro t w b b0; rfl
      | cons c l ihl =>
        intro t w b b0
        rw [List.foldl_cons, List.foldl_cons]
        have hstep : updStep act (updNode act h) n (t, w, b || b0) c =
            ((updStep act (updNode act h) n (t, w, b0) c).1, (updStep act (updNode act h) n (t, w, b0) c).2.1,
              b || (updStep act (updNode act h) n (t, w, b0) c).2.2) := by
          unfold updStep
          dsimp only
          cases act (t.child c) (n.computeChildIndex c.val) (w c) with
          | keep => rfl
          | assign v b' => simp only [Bool.or_assoc]
          | refine =>
            dsimp only
            rw [ih _ _ _ (b || b0), ih _ _ _ b0]
            simp only [Bool.or_assoc]
        rw [hstep, ihl]
    simp only [updNode]
    have h1 := hfold (List.finRange (2 ^ 3)) t (backward 3 ⟨v, WTree.details t⟩) b false
    rw [Bool.or_false] at h1
    rw [h1]

/-- What becomes of a child: its node, its value and whether thresholding is needed. -/
def updChild (act : WTree → NdtreeIndex 3 → ℚ → ChildAction) (h : Nat) (t : WTree) (n : NdtreeIndex 3) (w : Coeffs 3) (c : Fin (2 ^ 3)) : WTree × ℚ × Bool :=
  match act (t.child c) (n.computeChildIndex c.val) (w c) with
  | .keep => (t.child c, w c, false)
  | .assign v b => (t.child c, v, b)
  | .refine => updNode act h (t.getOrAllocateChild c zeroDetails) (n.computeChildIndex c.val) (w c) false

theorem updFold_spec (h : Nat) (n : NdtreeIndex 3) (l : List (Fin (2 ^ 3))) : l.Nodup → ∀ (t : WTree) (w : Coeffs 3) (b : Bool), t ≠ .nil →
    (∀ c, (l.foldl (updStep act (updNode act h) n) (t, w, b)).1.child c =
      if c ∈ l then (updChild act h t n w c).1 else t.child c) ∧
    (∀ c, (l.foldl (updStep act (updNode act h) n) (t, w, b)).2.1 c =
      if c ∈ l then (updChild act h t n w c).2.1 else w c) ∧
    (l.foldl (updStep act (updNode act h) n) (t, w, b)).2.2 = (b || l.any fun c => (updChild act h t n w c).2.2) := by
  induction l with
  | nil => intro _ t w b ht; simp
  | cons c l ih =>
    intro hl t w b ht
    rw [List.nodup_cons] at hl
    obtain ⟨hc, hl⟩ := hl
    rw [List.foldl_cons]
    have hstep : ∃ t' w' b', updStep act (updNode act h) n (t, w, b) c = (t', w', b') ∧ t' ≠ .nil ∧
        (∀ c', t'.child c' = if c' = c then (updChild act h t n w c).1 else t.child c') ∧
        (∀ c', w' c' = if c' = c then (updChild act h t n w c).2.1 else w c') ∧
        b' = (b || (updChild act h t n w c).2.2) := by
      unfold updStep updChild
      dsimp only
      cases act (t.child c) (n.computeChildIndex c.val) (w c) with
      | keep =>
        refine ⟨_, _, _, rfl, ht, fun c' => ?_, fun c' => ?_, by simp⟩ <;> · split <;> simp_all
      | assign v b' =>
        refine ⟨_, _, _, rfl, ht, fun c' => ?_, fun c' => rfl, rfl⟩
        split <;> simp_all
      | refine =>
        dsimp only
        rw [updNode_flag]
        exact ⟨_, _, _, rfl, setChild_ne_nil _ ht _ _, fun c' => setChild_child _ ht _ _ _, fun c' => rfl, rfl⟩
    obtain ⟨t', w', b', he, hn, h1, h2, h3⟩ := hstep
    rw [he]
    have hsame : ∀ c', c' ≠ c → updChild act h t' n w' c' = updChild act h t n w c' := by
      intro c' hc'
      unfold updChild NTree.getOrAllocateChild
      rw [h1, h2, if_neg hc', if_neg hc']
    obtain ⟨i1, i2, i3⟩ := ih hl t' w' b' hn
    refine ⟨fun c' => ?_, fun c' => ?_, ?_⟩
    · rw [i1]
      by_cases hc' : c' = c
      · subst hc'; rw [if_neg hc, h1, if_pos rfl, if_pos (List.mem_cons_self ..)]
      · simp only [List.mem_cons, hc', false_or, hsame c' hc', h1, if_false]
    · rw [i2]
      by_cases hc' : c' = c
      · subst hc'; rw [if_neg hc, h2, if_pos rfl, if_pos (List.mem_cons_self ..)]
      · simp only [List.mem_cons, hc', false_or, hsame c' hc', h2, if_false]
    · rw [i3, h3, List.any_cons, Bool.or_assoc]
      congr 2
      rw [Bool.eq_iff_iff, List.any_eq_true, List.any_eq_true]
      constructor <;> rintro ⟨x, hx, hh⟩ <;> refine ⟨x, hx, ?_⟩
      · rwa [hsame x (fun e => hc (e ▸ hx))] at hh
      · rwa [hsame x (fun e => hc (e ▸ hx))]

theorem updNode_child (h : Nat) (t : WTree) (ht : t ≠ .nil) (n : NdtreeIndex 3) (v : ℚ) (b : Bool) (c : Fin (2 ^ 3)) :
    (updNode act (h + 1) t n v b).1.child c = (updChild act h t n (backward 3 ⟨v, WTree.details t⟩) c).1 := by
  simp only [updNode]
  rw [WTree.setData_child, (updFold_spec h n _ (List.nodup_finRange _) t _ b ht).1, if_pos (List.mem_finRange c)]

theorem updNode_getValue_cons (h : Nat) (t : WTree) (ht : t ≠ .nil) (n : NdtreeIndex 3) (v : ℚ) (b : Bool) (c : Fin (2 ^ 3)) (q) :
    WTree.getValue (updNode act (h + 1) t n v b).1 (updNode act (h + 1) t n v b).2.1 (c :: q) =
      WTree.getValue (updChild act h t n (backward 3 ⟨v, WTree.details t⟩) c).1
        (updChild act h t n (backward 3 ⟨v, WTree.details t⟩) c).2.1 q := by
  rw [WTree.getValue_cons _ (updNode_ne_nil _ ht _ _ _), updNode_child h t ht]
  congr 1
  simp only [updNode]
  rw [WTree.details_setData _ (updFold_ne_nil _ ht), bwd3_fwd, (updFold_spec h n _ (List.nodup_finRange _) t _ b ht).2.1,
    if_pos (List.mem_finRange c)]

theorem updNode_flag_eq (h : Nat) (t : WTree) (ht : t ≠ .nil) (n : NdtreeIndex 3) (v : ℚ) (b : Bool) :
    (updNode act (h + 1) t n v b).2.2 =
      (b || (List.finRange (2 ^ 3)).any fun c => (updChild act h t n (backward 3 ⟨v, WTree.details t⟩) c).2.2) := by
  simp only [updNode]
  exact (updFold_spec h n _ (List.nodup_finRange _) t _ b ht).2.2

theorem getOrAllocate_descend (t : WTree) (c : Fin (2 ^ 3)) (a : Details 3) (q : List (Fin (2 ^ 3))) (hq : q ≠ []) :
    (t.getOrAllocateChild c a).descend q = (t.child c).descend q := by
  unfold NTree.getOrAllocateChild
  cases h : t.child c with
  | nil =>
    cases q with
    | nil => exact absurd rfl hq
    | cons i q => simp
  | leaf a => rfl
  | node a ch => rfl

theorem ancestor_child (j : Index 3) (h : Nat) :
    (indexAndHeightToNodeIndex j (h + 1)).computeChildIndex (relFin (indexAndHeightToNodeIndex j h)).val = indexAndHeightToNodeIndex j h := by
  rw [← ancestor_parent]
  exact (C02_child_of_parent _).2

/-- The depth of the tree stays within the height. -/
theorem updNode_depth (hT : ∀ node n v, act node n v = .refine → 0 < n.height) (h : Nat) : ∀ (t : WTree) (n : NdtreeIndex 3) (v : ℚ) (b : Bool), n.height = h → t ≠ .nil → WTree.DepthLe h t →
    WTree.DepthLe h (updNode act h t n v b).1 := by
  induction h with
  | zero => intro t n v b _ _ hd; exact hd
  | succ h ih =>
    intro t n v b hn ht hd c
    rw [updNode_child h t ht]
    unfold updChild
    split
    · exact hd c
    · exact hd c
    · rename_i ha
      have hpos : 0 < h := by
        have h1 := hT _ _ _ ha
        have h2 : (n.computeChildIndex c.val).height = n.height - 1 := rfl
        omega
      refine ih _ _ _ _ (by show n.height - 1 = _; omega) (getOrAllocateChild_ne_nil _ _ _) ?_
      obtain ⟨h, rfl⟩ : ∃ k, h = k + 1 := ⟨h - 1, by omega⟩
      exact hd.getOrAllocate c zeroDetails

/-- The value of a cell after the recursion, if it stops at the ancestor of height `s`. -/
theorem updNode_cell (j : Index 3) (s : Nat) (h : Nat) : ∀ (t : WTree) (v : ℚ) (b : Bool), t ≠ .nil → s < h →
    (∀ k, s < k → k < h → act (t.descend ((cellPath h j).take (h - k))) (indexAndHeightToNodeIndex j k)
      (t.getValue v ((cellPath h j).take (h - k))) = .refine) →
    (∀ w b', act (t.descend ((cellPath h j).take (h - s))) (indexAndHeightToNodeIndex j s)
      (t.getValue v ((cellPath h j).take (h - s))) = .assign w b' →
      WTree.getValue (updNode act h t (indexAndHeightToNodeIndex j h) v b).1
        (updNode act h t (indexAndHeightToNodeIndex j h) v b).2.1 (cellPath h j) =
        t.getValue v (cellPath h j) + (w - t.getValue v ((cellPath h j).take (h - s)))) ∧
    (act (t.descend ((cellPath h j).take (h - s))) (indexAndHeightToNodeIndex j s)
      (t.getValue v ((cellPath h j).take (h - s))) = .keep →
      WTree.getValue (updNode act h t (indexAndHeightToNodeIndex j h) v b).1
        (updNode act h t (indexAndHeightToNodeIndex j h) v b).2.1 (cellPath h j) = t.getValue v (cellPath h j)) := by
  induction h with
  | zero => intro t v b _ hs; omega
  | succ h ih =>
    intro t v b ht hs href
    have hcp : cellPath (h + 1) j = relFin (indexAndHeightToNodeIndex j h) :: cellPath h j := rfl
    have hV : ∀ k, k ≤ h → t.getValue v ((cellPath (h + 1) j).take (h + 1 - k)) =
        WTree.getValue (t.child (relFin (indexAndHeightToNodeIndex j h))) (backward 3 ⟨v, WTree.details t⟩ (relFin (indexAndHeightToNodeIndex j h)))
          ((cellPath h j).take (h - k)) := by
      intro k hk
      rw [hcp, show h + 1 - k = (h - k) + 1 by omega, List.take_succ_cons, WTree.getValue_cons _ ht, bwd3_single]
    have hD : ∀ k, k ≤ h → t.descend ((cellPath (h + 1) j).take (h + 1 - k)) =
        (t.child (relFin (indexAndHeightToNodeIndex j h))).descend ((cellPath h j).take (h - k)) := by
      intro k hk
      rw [hcp, show h + 1 - k = (h - k) + 1 by omega, List.take_succ_cons, descend_cons]
    have hVall : t.getValue v (cellPath (h + 1) j) =
        WTree.getValue (t.child (relFin (indexAndHeightToNodeIndex j h))) (backward 3 ⟨v, WTree.details t⟩ (relFin (indexAndHeightToNodeIndex j h)))
          (cellPath h j) := by
      rw [hcp, WTree.getValue_cons _ ht, bwd3_single]
    have hstep : WTree.getValue (updNode act (h + 1) t (indexAndHeightToNodeIndex j (h + 1)) v b).1
        (updNode act (h + 1) t (indexAndHeightToNodeIndex j (h + 1)) v b).2.1 (cellPath (h + 1) j) =
        WTree.getValue (updChild act h t (indexAndHeightToNodeIndex j (h + 1)) (backward 3 ⟨v, WTree.details t⟩) (relFin (indexAndHeightToNodeIndex j h))).1
          (updChild act h t (indexAndHeightToNodeIndex j (h + 1)) (backward 3 ⟨v, WTree.details t⟩) (relFin (indexAndHeightToNodeIndex j h))).2.1 (cellPath h j) := by
      rw [hcp]
      exact updNode_getValue_cons h t ht _ v b _ _
    rw [hstep, hVall]
    have hVh := hV h (le_refl _)
    have hDh := hD h (le_refl _)
    rw [Nat.sub_self, List.take_zero] at hVh hDh
    rw [WTree.getValue_nil_path] at hVh
    rw [descend_nil'] at hDh
    by_cases hsh : s = h
    · subst hsh
      rw [hVh, hDh]
      constructor
      · intro w b' ha
        unfold updChild
        rw [ancestor_child, ha]
        dsimp only
        rw [← WTree.getValue_shift]
        congr 1
        ring
      · intro ha
        unfold updChild
        rw [ancestor_child, ha]
    · have hlt : s < h := by omega
      have ha := href h hlt (by omega)
      rw [hVh, hDh] at ha
      have hu : updChild act h t (indexAndHeightToNodeIndex j (h + 1)) (backward 3 ⟨v, WTree.details t⟩) (relFin (indexAndHeightToNodeIndex j h)) =
          updNode act h (t.getOrAllocateChild (relFin (indexAndHeightToNodeIndex j h)) zeroDetails) (indexAndHeightToNodeIndex j h)
            (backward 3 ⟨v, WTree.details t⟩ (relFin (indexAndHeightToNodeIndex j h))) false := by
        unfold updChild
        rw [ancestor_child, ha]
      rw [hu]
      have hlen : ∀ k, k < h → (cellPath h j).take (h - k) ≠ [] := by
        intro k hk he
        have := congrArg List.length he
        rw [List.length_take, cellPath_length, List.length_nil] at this
        omega
      have key := ih (t.getOrAllocateChild (relFin (indexAndHeightToNodeIndex j h)) zeroDetails)
        (backward 3 ⟨v, WTree.details t⟩ (relFin (indexAndHeightToNodeIndex j h))) false (getOrAllocateChild_ne_nil _ _ _) hlt (by
          intro k h1 h2
          rw [WTree.getOrAllocate_getValue, getOrAllocate_descend _ _ _ _ (hlen k h2), ← hV k (by omega), ← hD k (by omega)]
          exact href k h1 (by omega))
      simp only [WTree.getOrAllocate_getValue, getOrAllocate_descend _ _ _ _ (hlen s hlt), ← hV s (by omega), ← hD s (by omega)] at key
      exact key

/-- A cell that stops at an assignment with the flag marks the result. -/
theorem updNode_marks (j : Index 3) (s : Nat) (h : Nat) : ∀ (t : WTree) (v : ℚ) (b : Bool), t ≠ .nil → s < h →
    (∀ k, s < k → k < h → act (t.descend ((cellPath h j).take (h - k))) (indexAndHeightToNodeIndex j k)
      (t.getValue v ((cellPath h j).take (h - k))) = .refine) →
    (∃ w, act (t.descend ((cellPath h j).take (h - s))) (indexAndHeightToNodeIndex j s)
      (t.getValue v ((cellPath h j).take (h - s))) = .assign w true) →
    (updNode act h t (indexAndHeightToNodeIndex j h) v b).2.2 = true := by
  induction h with
  | zero => intro t v b _ hs; omega
  | succ h ih =>
    intro t v b ht hs href hact
    have hcp : cellPath (h + 1) j = relFin (indexAndHeightToNodeIndex j h) :: cellPath h j := rfl
    have hV : ∀ k, k ≤ h → t.getValue v ((cellPath (h + 1) j).take (h + 1 - k)) =
        WTree.getValue (t.child (relFin (indexAndHeightToNodeIndex j h))) (backward 3 ⟨v, WTree.details t⟩ (relFin (indexAndHeightToNodeIndex j h)))
          ((cellPath h j).take (h - k)) := by
      intro k hk
      rw [hcp, show h + 1 - k = (h - k) + 1 by omega, List.take_succ_cons, WTree.getValue_cons _ ht, bwd3_single]
    have hD : ∀ k, k ≤ h → t.descend ((cellPath (h + 1) j).take (h + 1 - k)) =
        (t.child (relFin (indexAndHeightToNodeIndex j h))).descend ((cellPath h j).take (h - k)) := by
      intro k hk
      rw [hcp, show h + 1 - k = (h - k) + 1 by omega, List.take_succ_cons, descend_cons]
    rw [updNode_flag_eq h t ht, Bool.or_eq_true, List.any_eq_true]
    refine Or.inr ⟨relFin (indexAndHeightToNodeIndex j h), List.mem_finRange _, ?_⟩
    have hVh := hV h (le_refl _)
    have hDh := hD h (le_refl _)
    rw [Nat.sub_self, List.take_zero] at hVh hDh
    rw [WTree.getValue_nil_path] at hVh
    rw [descend_nil'] at hDh
    by_cases hsh : s = h
    · subst hsh
      obtain ⟨w, hw⟩ := hact
      rw [hVh, hDh] at hw
      unfold updChild
      rw [ancestor_child, hw]
    · have hlt : s < h := by omega
      have ha := href h hlt (by omega)
      rw [hVh, hDh] at ha
      unfold updChild
      rw [ancestor_child, ha]
      have hlen : ∀ k, k < h → (cellPath h j).take (h - k) ≠ [] := by
        intro k hk he
        have := congrArg List.length he
        rw [List.length_take, cellPath_length, List.length_nil] at this
        omega
      refine ih _ _ _ (getOrAllocateChild_ne_nil _ _ _) hlt ?_ ?_
      · intro k h1 h2
        rw [WTree.getOrAllocate_getValue, getOrAllocate_descend _ _ _ _ (hlen k h2), ← hV k (by omega), ← hD k (by omega)]
        exact href k h1 (by omega)
      · rw [WTree.getOrAllocate_getValue, getOrAllocate_descend _ _ _ _ (hlen s hlt), ← hV s (by omega), ← hD s (by omega)]
        exact hact

/-! ## Blocks -/

/-- The structural part of the invariant of blocks: it does not mention the values. -/
structure WaveletBlock.Fits (b : WaveletBlock) (H : Nat) (lo hi : ℚ) : Prop where
  height : b.treeHeight = H
  minOk : b.minLogOdds = lo
  maxOk : b.maxLogOdds = hi
  root : b.root ≠ .nil
  depth : WTree.DepthLe H b.root

/-- The block after the update. -/
def WaveletBlock.updated (scan : Scan) (config : HashedWaveletOctreeConfig) (b : WaveletBlock) (k : Index 3) (now : ℚ) : WaveletBlock :=
  let r := updNode (childAction scan config.minLogOdds config.maxLogOdds (scan.terminationHeight config.minCellWidth)) config.treeHeight b.root
    ⟨config.treeHeight, k⟩ b.rootScale b.needsThresholding
  { b with root := r.1, rootScale := r.2.1, needsThresholding := r.2.2, needsPruning := true, lastUpdated := now }

theorem Scan.terminationHeight_nonneg (s : Scan) (w : ℚ) (hw : 0 < w) : 0 ≤ s.terminationHeight w := by
  unfold Scan.terminationHeight
  split
  · rename_i h
    apply Int.ediv_nonneg _ (by decide)
    have h1 : 1 < s.maxUpdateResolution / w := (one_lt_div hw).2 h
    have h2 : (1 : ℚ) ≤ 2 * (s.maxUpdateResolution / w) ^ 2 := by nlinarith
    have h3 : 0 < 2 * (s.maxUpdateResolution / w) ^ 2 := by linarith
    rw [← Int.zpow_le_iff_le_log (by decide) h3]
    simpa using h2
  · exact le_refl _

theorem childAction_height {scan : Scan} {lo hi : ℚ} {T : Int} {node : WTree} {n : NdtreeIndex 3} {v : ℚ} (hT : 0 ≤ T)
    (ha : childAction scan lo hi T node n v = .refine) : 0 < n.height := by
  by_contra hle
  unfold childAction at ha
  dsimp only at ha
  rw [if_pos (by omega)] at ha
  cases ha

theorem WaveletBlock.update_eq {scan : Scan} {config : HashedWaveletOctreeConfig} {b : WaveletBlock} {k : Index 3} {now : ℚ}
    (hw : 0 < config.minCellWidth) (hpos : 0 < config.treeHeight) (hr : b.root ≠ .nil) :
    b.update scan config k now = some (b.updated scan config k now) := by
  obtain ⟨c, hc, hl⟩ := updateLoop_spec (scan := scan) (lo := config.minLogOdds) (hi := config.maxLogOdds)
    (scan.terminationHeight_nonneg _ hw) config.treeHeight hpos b.root [] ⟨config.treeHeight, k⟩ b.rootScale b.needsThresholding []
    rfl hr
  have := hl (updateCost config.treeHeight - c)
  rw [Nat.sub_add_cancel hc] at this
  unfold WaveletBlock.update
  rw [descend_nil', modifyAt_nil _ _ hr] at this
  rw [this]
  rfl

theorem WaveletBlock.Fits.updated {scan : Scan} {config : HashedWaveletOctreeConfig} {b : WaveletBlock}
    (h : b.Fits config.treeHeight config.minLogOdds config.maxLogOdds) (hw : 0 < config.minCellWidth) (k : Index 3) (now : ℚ) :
    (b.updated scan config k now).Fits config.treeHeight config.minLogOdds config.maxLogOdds :=
  ⟨h.height, h.minOk, h.maxOk, updNode_ne_nil _ h.root _ _ _,
    updNode_depth (fun _ _ _ h => childAction_height (scan.terminationHeight_nonneg _ hw) h) _ _ _ _ _ rfl h.root h.depth⟩

theorem WaveletBlock.Fits.create {H : Nat} {lo hi : ℚ} (hpos : 0 < H) (now : ℚ) : (WaveletBlock.create H lo hi now).Fits H lo hi :=
  ⟨rfl, rfl, rfl, (WaveletBlock.Ok.create hpos now).1, (WaveletBlock.Ok.create hpos now).2⟩

theorem WaveletBlock.Fits.add {H : Nat} {lo hi : ℚ} {b : WaveletBlock} (h : b.Fits H lo hi) (hH : H ≤ 20) (i : Index 3) (u now : ℚ) :
    (b.addToCellValue ⟨0, fun k => i k % 2 ^ H⟩ u now).Fits H lo hi := by
  have := WaveletBlock.Ok.add ⟨h.height, h.minOk, h.maxOk, h.root, h.depth⟩ hH i u now
  exact ⟨this.height, this.minOk, this.maxOk, this.root, this.depth⟩

theorem WaveletBlock.Fits.threshold {H : Nat} {lo hi : ℚ} {b : WaveletBlock} (h : b.Fits H lo hi) : b.threshold.Fits H lo hi := by
  unfold WaveletBlock.threshold
  split
  · exact ⟨h.height, h.minOk, h.maxOk, fun e => h.root ((WTree.recThreshold_isNil _ _ _ _).1 e), h.depth.recThreshold _ _ _⟩
  · exact h

theorem WaveletBlock.Fits.prune {H : Nat} {lo hi : ℚ} {b : WaveletBlock} (h : b.Fits H lo hi) : b.prune.Fits H lo hi := by
  unfold WaveletBlock.prune
  split
  · have ht := h.threshold
    exact ⟨ht.height, ht.minOk, ht.maxOk, fun e => ht.root ((WTree.recPrune_isNil _).1 e), ht.depth.recPrune⟩
  · exact h

end Wavemap
