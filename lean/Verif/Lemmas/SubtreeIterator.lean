import Mathlib.Data.List.Nodup
import Verif.Model.SubtreeIterator
import Verif.Lemmas.Ndtree
/-! Helper lemmas for C31: recursive listings of a tree and the loops that produce them. -/
namespace Wavemap
variable {n : Nat} {α : Type}
open NTree

namespace NTree

/-- Preorder listing. -/
def prePaths : NTree n α → List (Fin n) → List (List (Fin n))
  | .nil, _ => []
  | .leaf _, p => [p]
  | .node _ ch, p => p :: (List.finRange n).flatMap fun i => prePaths (ch i) (p ++ [i])

/-- Postorder listing. -/
def postPaths : NTree n α → List (Fin n) → List (List (Fin n))
  | .nil, _ => []
  | .leaf _, p => [p]
  | .node _ ch, p => ((List.finRange n).flatMap fun i => postPaths (ch i) (p ++ [i])) ++ [p]

theorem isNil_false_iff {t : NTree n α} : t.isNil = false ↔ t ≠ nil := by cases t <;> simp [isNil]

theorem mem_prePaths (t : NTree n α) (p q : List (Fin n)) :
    q ∈ prePaths t p ↔ ∃ r, q = p ++ r ∧ t.descend r ≠ nil := by
  induction t generalizing p with
  | nil => simp [prePaths]
  | leaf a =>
    simp only [prePaths, List.mem_singleton]
    constructor
    · rintro rfl; exact ⟨[], by simp, by simp⟩
    · rintro ⟨r, rfl, hr⟩
      cases r with
      | nil => simp
      | cons i r => simp at hr
  | node a ch ih =>
    simp only [prePaths, List.mem_cons, List.mem_flatMap, List.mem_finRange, true_and, ih]
    constructor
    · rintro (rfl | ⟨i, r, rfl, hr⟩)
      · exact ⟨[], by simp, by simp⟩
      · exact ⟨i :: r, by simp, by simpa using hr⟩
    · rintro ⟨r, rfl, hr⟩
      cases r with
      | nil => left; simp
      | cons i r => right; exact ⟨i, r, by simp, by simpa using hr⟩

theorem prePaths_perm_postPaths (t : NTree n α) (p : List (Fin n)) : (prePaths t p).Perm (postPaths t p) := by
  induction t generalizing p with
  | nil => exact List.Perm.refl _
  | leaf a => exact List.Perm.refl _
  | node a ch ih =>
    simp only [prePaths, postPaths]
    refine List.Perm.trans ?_ (List.perm_append_comm (l₁ := [p]))
    refine List.Perm.cons _ ?_
    have key : ∀ l : List (Fin n), (l.flatMap fun i => prePaths (ch i) (p ++ [i])).Perm
        (l.flatMap fun i => postPaths (ch i) (p ++ [i])) := by
      intro l
      induction l with
      | nil => exact List.Perm.refl _
      | cons i l ihl => rw [List.flatMap_cons, List.flatMap_cons]; exact (ih i _).append ihl
    exact key _

theorem mem_postPaths (t : NTree n α) (p q : List (Fin n)) :
    q ∈ postPaths t p ↔ ∃ r, q = p ++ r ∧ t.descend r ≠ nil := by
  rw [← (prePaths_perm_postPaths t p).mem_iff, mem_prePaths]

theorem prefix_child (p : List (Fin n)) (i j : Fin n) (r s : List (Fin n)) (h : p ++ [i] ++ r = p ++ [j] ++ s) :
    i = j ∧ r = s := by simpa using h

theorem append_cons_ne_prefix (p : List (Fin n)) (i : Fin n) (r : List (Fin n)) : ¬ (p ++ [i] ++ r <+: p) := by
  intro h
  have := h.length_le
  simp at this

/-- Preorder: no path is followed by one of its prefixes (in particular there are no repetitions). -/
theorem prePaths_order (t : NTree n α) (p : List (Fin n)) :
    (prePaths t p).Pairwise fun a b => ¬ (b <+: a) := by
  induction t generalizing p with
  | nil => simp [prePaths]
  | leaf a => simp [prePaths]
  | node a ch ih =>
    simp only [prePaths, List.pairwise_cons, List.pairwise_flatMap]
    refine ⟨fun q hq => ?_, fun i _ => ih i _, ?_⟩
    · rw [List.mem_flatMap] at hq
      obtain ⟨i, _, hi⟩ := hq
      obtain ⟨r, rfl, _⟩ := (mem_prePaths _ _ _).1 hi
      exact append_cons_ne_prefix p i r
    · refine (List.nodup_finRange n).imp fun {i j} hij => ?_
      intro x hx y hy hxy
      obtain ⟨r, rfl, _⟩ := (mem_prePaths _ _ _).1 hx
      obtain ⟨s, rfl, _⟩ := (mem_prePaths _ _ _).1 hy
      obtain ⟨u, hu⟩ := hxy
      rw [List.append_assoc] at hu
      exact hij (prefix_child p j i (s ++ u) r hu).1.symm

/-- Postorder: no path is preceded by one of its prefixes. -/
theorem postPaths_order (t : NTree n α) (p : List (Fin n)) :
    (postPaths t p).Pairwise fun a b => ¬ (a <+: b) := by
  induction t generalizing p with
  | nil => simp [postPaths]
  | leaf a => simp [postPaths]
  | node a ch ih =>
    simp only [postPaths, List.pairwise_append, List.pairwise_flatMap]
    refine ⟨⟨fun i _ => ih i _, ?_⟩, by simp, fun q hq b hb => ?_⟩
    · refine (List.nodup_finRange n).imp fun {i j} hij => ?_
      intro x hx y hy hxy
      obtain ⟨r, rfl, _⟩ := (mem_postPaths _ _ _).1 hx
      obtain ⟨s, rfl, _⟩ := (mem_postPaths _ _ _).1 hy
      obtain ⟨u, hu⟩ := hxy
      rw [List.append_assoc] at hu
      exact hij (prefix_child p i j (r ++ u) s hu).1
    · rw [List.mem_singleton] at hb
      subst hb
      rw [List.mem_flatMap] at hq
      obtain ⟨i, _, hi⟩ := hq
      obtain ⟨r, rfl, _⟩ := (mem_postPaths _ _ _).1 hi
      exact append_cons_ne_prefix _ i r

theorem prePaths_length (t : NTree n α) (p : List (Fin n)) : (prePaths t p).length = numNodes t := by
  induction t generalizing p with
  | nil => rfl
  | leaf a => rfl
  | node a ch ih =>
    simp only [prePaths, numNodes, List.length_cons, List.length_flatMap, ih]

end NTree

/-! ### Preorder and breadth-first loops -/

theorem childPtrs_flatMap (t : NTree n α) (p : List (Fin n)) (h : t.descend p ≠ nil) :
    prePaths (t.descend p) p = p :: (childPtrs t p).flatMap fun q => prePaths (t.descend q) q := by
  have key : ∀ l : List (Fin n), l.flatMap (fun i => prePaths ((t.descend p).child i) (p ++ [i]))
      = ((l.filter fun i => !((t.descend p).child i).isNil).map fun i => p ++ [i]).flatMap
          fun q => prePaths (t.descend q) q := by
    intro l
    induction l with
    | nil => rfl
    | cons i l ih =>
      rw [List.flatMap_cons, ih, List.filter_cons]
      cases hc : ((t.descend p).child i).isNil
      · simp [descend_append]
      · rw [isNil_iff.1 hc]; simp [prePaths]
  unfold childPtrs
  rw [← key]
  generalize t.descend p = s at *
  cases s with
  | nil => exact absurd rfl h
  | leaf a => simp [prePaths]
  | node a ch => simp [prePaths]

theorem childPtrs_ne_nil (t : NTree n α) (p q : List (Fin n)) (h : q ∈ childPtrs t p) : t.descend q ≠ nil := by
  unfold childPtrs at h
  rw [List.mem_map] at h
  obtain ⟨i, hi, rfl⟩ := h
  rw [List.mem_filter] at hi
  have := hi.2
  rw [Bool.not_eq_true', isNil_false_iff] at this
  simpa [descend_append] using this

theorem pre_loop (t : NTree n α) (fuel : Nat) (D : List (List (Fin n))) (hD : ∀ q ∈ D, t.descend q ≠ nil)
    (hf : (D.flatMap fun q => prePaths (t.descend q) q).length ≤ fuel) :
    iterLoop (preNext t) fuel D = some (D.flatMap fun q => prePaths (t.descend q) q) := by
  induction fuel generalizing D with
  | zero =>
    cases D with
    | nil => rfl
    | cons p q =>
      rw [List.flatMap_cons, childPtrs_flatMap t p (hD p (by simp))] at hf
      simp at hf
  | succ fuel ih =>
    cases D with
    | nil => rfl
    | cons p q =>
      have e := childPtrs_flatMap t p (hD p (by simp))
      rw [List.flatMap_cons, e] at hf ⊢
      unfold iterLoop
      have hn : preNext t (p :: q) = childPtrs t p ++ q := rfl
      rw [hn, ih]
      · simp
      · intro x hx
        rcases List.mem_append.1 hx with hx | hx
        · exact childPtrs_ne_nil t p x hx
        · exact hD x (by simp [hx])
      · rw [List.flatMap_append]
        simpa using hf

theorem childPtrs_length (t : NTree n α) (p q : List (Fin n)) (h : q ∈ childPtrs t p) : q.length = p.length + 1 := by
  unfold childPtrs at h
  rw [List.mem_map] at h
  obtain ⟨i, _, rfl⟩ := h
  simp

theorem bfs_loop (t : NTree n α) (fuel : Nat) (D : List (List (Fin n))) (hD : ∀ q ∈ D, t.descend q ≠ nil)
    (hsort : D.Pairwise fun a b => a.length ≤ b.length) (hspan : ∀ p q, p ∈ D → q ∈ D → q.length ≤ p.length + 1)
    (hf : (D.flatMap fun q => prePaths (t.descend q) q).length ≤ fuel) :
    ∃ L, iterLoop (bfsNext t) fuel D = some L ∧ L.Perm (D.flatMap fun q => prePaths (t.descend q) q) ∧
      L.Pairwise (fun a b => a.length ≤ b.length) ∧
      (∀ m, (∀ q ∈ D, m ≤ q.length) → ∀ q ∈ L, m ≤ q.length) := by
  induction fuel generalizing D with
  | zero =>
    cases D with
    | nil => exact ⟨[], rfl, by simp, by simp, by simp⟩
    | cons p q =>
      rw [List.flatMap_cons, childPtrs_flatMap t p (hD p (by simp))] at hf
      simp at hf
  | succ fuel ih =>
    cases D with
    | nil => exact ⟨[], rfl, by simp, by simp, by simp⟩
    | cons p q =>
      have e := childPtrs_flatMap t p (hD p (by simp))
      rw [List.flatMap_cons, e] at hf
      rw [List.pairwise_cons] at hsort
      obtain ⟨L, h1, h2, h3, h4⟩ := ih (q ++ childPtrs t p)
        (by
          intro x hx
          rcases List.mem_append.1 hx with hx | hx
          · exact hD x (by simp [hx])
          · exact childPtrs_ne_nil t p x hx)
        (by
          rw [List.pairwise_append]
          refine ⟨hsort.2, ?_, ?_⟩
          · rw [List.pairwise_iff_forall_sublist]
            intro a b hab
            have ha : a ∈ childPtrs t p := hab.subset (by simp)
            have hb : b ∈ childPtrs t p := hab.subset (by simp)
            rw [childPtrs_length t p a ha, childPtrs_length t p b hb]
          · intro a ha b hb
            rw [childPtrs_length t p b hb]
            exact hspan p a (by simp) (by simp [ha]))
        (by
          intro a b ha hb
          rcases List.mem_append.1 ha with ha | ha <;> rcases List.mem_append.1 hb with hb | hb
          · exact hspan a b (by simp [ha]) (by simp [hb])
          · rw [childPtrs_length t p b hb]
            have := hsort.1 a ha; omega
          · rw [childPtrs_length t p a ha]
            have := hspan p b (by simp) (by simp [hb]); omega
          · rw [childPtrs_length t p a ha, childPtrs_length t p b hb]; omega)
        (by rw [List.flatMap_append]; simp at hf ⊢; omega)
      refine ⟨p :: L, ?_, ?_, ?_, ?_⟩
      · unfold iterLoop
        have hn : bfsNext t (p :: q) = q ++ childPtrs t p := rfl
        rw [hn, h1]; rfl
      · rw [List.flatMap_cons, e, List.cons_append]
        refine List.Perm.cons _ (h2.trans ?_)
        rw [List.flatMap_append]
        exact List.perm_append_comm
      · rw [List.pairwise_cons]
        refine ⟨h4 p.length fun x hx => ?_, h3⟩
        rcases List.mem_append.1 hx with hx | hx
        · exact hsort.1 x hx
        · rw [childPtrs_length t p x hx]; omega
      · intro m hm x hx
        rcases List.mem_cons.1 hx with rfl | hx
        · exact hm _ (by simp)
        · refine h4 m (fun y hy => ?_) x hx
          rcases List.mem_append.1 hy with hy | hy
          · exact hm y (by simp [hy])
          · rw [childPtrs_length t p y hy]
            have := hm p (by simp); omega

/-! ### Postorder loop -/

namespace NTree

/-- Every allocated children array holds at least one child. -/
def NoEmptyArray : NTree n α → Prop
  | .nil => True
  | .leaf _ => True
  | .node _ ch => (∃ i, ch i ≠ nil) ∧ ∀ i, NoEmptyArray (ch i)

/-- Apply `body` to every node, children first. -/
def postMap (body : NTree n α → NTree n α) : NTree n α → NTree n α
  | .nil => .nil
  | .leaf a => body (.leaf a)
  | .node a ch => body (.node a fun i => postMap body (ch i))

theorem modifyAt_append (g : NTree n α → NTree n α) (t : NTree n α) (p q : List (Fin n)) :
    modifyAt g t (p ++ q) = modifyAt (fun s => modifyAt g s q) t p := by
  induction p generalizing t with
  | nil => cases t <;> cases q <;> simp [modifyAt]
  | cons i p ih => cases t <;> simp [modifyAt, ih]

theorem modifyAt_modifyAt (g h : NTree n α → NTree n α) (hh : ∀ s, s ≠ nil → h s ≠ nil) (t : NTree n α)
    (p : List (Fin n)) : modifyAt g (modifyAt h t p) p = modifyAt (fun s => g (h s)) t p := by
  induction p generalizing t with
  | nil =>
    by_cases ht : t = nil
    · subst ht; rfl
    · rw [modifyAt_nil _ _ ht, modifyAt_nil _ _ (hh _ ht), modifyAt_nil _ _ ht]
  | cons i p ih =>
    cases t with
    | nil => rfl
    | leaf a => rfl
    | node a ch =>
      simp only [modifyAt, if_true, ih]
      refine congrArg (node a) (funext fun j => ?_)
      split <;> rfl

theorem modifyAt_congr (g h : NTree n α → NTree n α) (t : NTree n α) (p : List (Fin n))
    (e : g (t.descend p) = h (t.descend p)) : modifyAt g t p = modifyAt h t p := by
  induction p generalizing t with
  | nil => cases t <;> simp_all [modifyAt]
  | cons i p ih =>
    cases t with
    | nil => rfl
    | leaf a => rfl
    | node a ch => simp only [modifyAt]; rw [ih (ch i) (by simpa using e)]

end NTree

theorem firstChildFrom_some {s : NTree n α} {k : Nat} {j : Fin n} (h : firstChildFrom s k = some j) :
    k ≤ j.val ∧ s.child j ≠ nil ∧ ∀ i : Fin n, k ≤ i.val → i.val < j.val → s.child i = nil := by
  unfold firstChildFrom at h
  rw [List.find?_eq_some_iff_getElem] at h
  obtain ⟨h1, i, hi, hj, hall⟩ := h
  simp only [Bool.and_eq_true, decide_eq_true_eq, Bool.not_eq_true', isNil_false_iff] at h1
  refine ⟨h1.1, h1.2, fun m hm hlt => ?_⟩
  have hji : j.val = i := by rw [← hj]; simp
  have := hall m.val (by omega)
  simp only [List.getElem_finRange, Bool.not_eq_true', Bool.and_eq_false_iff, decide_eq_false_iff_not,
    Bool.not_eq_false', isNil_iff] at this
  rcases this with h | h
  · exact absurd hm h
  · exact h

theorem firstChildFrom_none {s : NTree n α} {k : Nat} (h : firstChildFrom s k = none) :
    ∀ i : Fin n, k ≤ i.val → s.child i = nil := by
  unfold firstChildFrom at h
  rw [List.find?_eq_none] at h
  intro i hi
  have := h i (List.mem_finRange i)
  simp only [Bool.and_eq_true, decide_eq_true_eq, Bool.not_eq_true', isNil_false_iff, not_and, not_not] at this
  exact this hi

theorem postEnqueue_node (a : α) (ch : Fin n → NTree n α) (p : List (Fin n)) :
    postEnqueue (.node a ch) p = match firstChildFrom (.node a ch) 0 with
      | some j => postEnqueue (ch j) (p ++ [j]) ++ [(p, j.val)]
      | none => [] := by
  rw [postEnqueue]
  have : (List.finRange n).find? (fun j => !(ch j).isNil) = firstChildFrom (.node a ch) 0 := by
    unfold firstChildFrom; simp
  rw [this]
  cases firstChildFrom (NTree.node a ch) 0 <;> rfl

/-- The children numbered `≥ k`, in postorder. -/
def postFrom (ch : Fin n → NTree n α) (p : List (Fin n)) (k : Nat) : List (List (Fin n)) :=
  ((List.finRange n).filter fun i => decide (k ≤ i.val)).flatMap fun i => NTree.postPaths (ch i) (p ++ [i])

theorem filter_ge_skip (k : Nat) (j : Fin n) (hkj : k ≤ j.val) :
    (List.finRange n).filter (fun i => decide (k ≤ i.val)) =
      (List.finRange n).filter (fun i => decide (k ≤ i.val ∧ i.val < j.val)) ++ j ::
      (List.finRange n).filter (fun i => decide (j.val + 1 ≤ i.val)) := by
  have e : List.finRange n = (List.finRange n).take j.val ++ j :: (List.finRange n).drop (j.val + 1) := by
    conv_lhs => rw [← List.take_append_drop j.val (List.finRange n)]
    rw [List.drop_eq_getElem_cons (by simp)]
    simp
  have ht : ∀ i ∈ (List.finRange n).take j.val, i.val < j.val := by
    intro i hi
    rw [List.mem_take_iff_getElem] at hi
    obtain ⟨m, hm, rfl⟩ := hi
    simp; simp at hm; omega
  have hdr : ∀ i ∈ (List.finRange n).drop (j.val + 1), j.val < i.val := by
    intro i hi
    rw [List.mem_drop_iff_getElem] at hi
    obtain ⟨m, hm, rfl⟩ := hi
    simp; omega
  rw [e]
  simp only [List.filter_append, List.filter_cons]
  have a1 : decide (k ≤ j.val) = true := by simpa using hkj
  have a2 : decide (k ≤ j.val ∧ j.val < j.val) = false := by simp
  have a3 : decide (j.val + 1 ≤ j.val) = false := by simp
  rw [a1, a2, a3]
  simp only [if_true, Bool.false_eq_true, if_false]
  have b1 : ((List.finRange n).drop (j.val + 1)).filter (fun i => decide (k ≤ i.val ∧ i.val < j.val)) = [] := by
    rw [List.filter_eq_nil_iff]; intro i hi; have := hdr i hi; simp; omega
  have b2 : ((List.finRange n).take j.val).filter (fun i => decide (j.val + 1 ≤ i.val)) = [] := by
    rw [List.filter_eq_nil_iff]; intro i hi; have := ht i hi; simp; omega
  rw [b1, b2]
  simp only [List.append_nil, List.nil_append]
  refine congrArg₂ _ (List.filter_congr fun i hi => ?_) (congrArg _ (List.filter_congr fun i hi => ?_))
  · have := ht i hi; simp; omega
  · have := hdr i hi; simp; omega

theorem postFrom_some (ch : Fin n → NTree n α) (p : List (Fin n)) (k : Nat) (j : Fin n)
    (hkj : k ≤ j.val) (hnil : ∀ i : Fin n, k ≤ i.val → i.val < j.val → ch i = nil) :
    postFrom ch p k = NTree.postPaths (ch j) (p ++ [j]) ++ postFrom ch p (j.val + 1) := by
  unfold postFrom
  rw [filter_ge_skip k j hkj, List.flatMap_append, List.flatMap_cons]
  have : ((List.finRange n).filter fun i => decide (k ≤ i.val ∧ i.val < j.val)).flatMap
      (fun i => NTree.postPaths (ch i) (p ++ [i])) = [] := by
    rw [List.flatMap_eq_nil_iff]
    intro i hi
    rw [List.mem_filter] at hi
    have hi2 := hi.2
    simp only [decide_eq_true_eq] at hi2
    rw [hnil i hi2.1 hi2.2]; rfl
  rw [this]; rfl

theorem postFrom_none (ch : Fin n → NTree n α) (p : List (Fin n)) (k : Nat)
    (hnil : ∀ i : Fin n, k ≤ i.val → ch i = nil) : postFrom ch p k = [] := by
  unfold postFrom
  rw [List.flatMap_eq_nil_iff]
  intro i hi
  rw [List.mem_filter] at hi
  have hi2 := hi.2
  simp only [decide_eq_true_eq] at hi2
  rw [hnil i hi2]; rfl

theorem post_loop (body : NTree n α → NTree n α) (hb : ∀ s, s ≠ nil → body s ≠ nil)
    (s : NTree n α) (hs : s ≠ nil) (hwf : s.NoEmptyArray) (t : NTree n α) (p : List (Fin n)) (ht : t.descend p = s)
    (rest : List (List (Fin n) × Nat)) (m : Nat) :
    postLoop body ((NTree.postPaths s p).length + m) t (postEnqueue s p ++ rest) =
      (postLoop body m (t.modifyAt (fun _ => s.postMap body) p) (postAdvance (t.modifyAt (fun _ => s.postMap body) p) rest)).map
        fun r => (NTree.postPaths s p ++ r.1, r.2) := by
  induction s generalizing t p rest m with
  | nil => exact absurd rfl hs
  | leaf a =>
    have e : t.modifyAt body p = t.modifyAt (fun _ => (NTree.leaf a : NTree n α).postMap body) p := by
      apply NTree.modifyAt_congr; rw [ht]; rfl
    have ef : (NTree.postPaths (NTree.leaf a : NTree n α) p).length + m = m + 1 := by simp [NTree.postPaths]; omega
    rw [ef]
    simp only [postEnqueue, List.cons_append, List.nil_append, postLoop, NTree.postPaths]
    rw [e]
  | node a ch ih =>
    obtain ⟨hex, hall⟩ := hwf
    have hmne : ∀ s : NTree n α, s ≠ nil → s.postMap body ≠ nil := by
      intro s hs
      cases s with
      | nil => exact absurd rfl hs
      | leaf a => exact hb _ (by simp)
      | node a ch => exact hb _ (by simp)
    have htne : t.descend p ≠ nil := by rw [ht]; simp
    -- the subtree with the children below `k` already processed
    let S : Nat → NTree n α := fun k => .node a fun i => if i.val < k then (ch i).postMap body else ch i
    have hS : ∀ k, (t.modifyAt (fun _ => S k) p).descend p = S k := by
      intro k
      have h1 := modifyAt_descend (fun _ => S k) t p []
      simp only [List.append_nil, descend_nil'] at h1
      rw [h1, isNil_false_iff.2 htne]; rfl
    -- finishing the children from `k` on
    have key : ∀ (c k : Nat), n - k = c → ∀ m' last, last + 1 = k →
        postLoop body ((postFrom ch p k ++ [p]).length + m') (t.modifyAt (fun _ => S k) p)
          (postAdvance (t.modifyAt (fun _ => S k) p) ((p, last) :: rest)) =
        (postLoop body m' (t.modifyAt (fun _ => (NTree.node a ch).postMap body) p)
          (postAdvance (t.modifyAt (fun _ => (NTree.node a ch).postMap body) p) rest)).map
            fun r => (postFrom ch p k ++ [p] ++ r.1, r.2) := by
      intro c
      induction c using Nat.strongRecOn with
      | ind c ihc =>
        intro k hc m' last hlast
        subst hlast
        rw [postAdvance, hS]
        cases hfc : firstChildFrom (S (last + 1)) (last + 1) with
        | none =>
          have hn := firstChildFrom_none hfc
          have hn' : ∀ i : Fin n, last + 1 ≤ i.val → ch i = nil := by
            intro i hi
            have := hn i hi
            simp only [S, child_node] at this
            rwa [if_neg (by omega)] at this
          rw [postFrom_none ch p _ hn']
          have ef : ([] ++ [p]).length + m' = m' + 1 := by simp; omega
          rw [ef]
          simp only [postLoop, List.nil_append, List.cons_append]
          have e : (t.modifyAt (fun _ => S (last + 1)) p).modifyAt body p
              = t.modifyAt (fun _ => (NTree.node a ch).postMap body) p := by
            rw [NTree.modifyAt_modifyAt _ _ (fun _ _ => by simp [S])]
            apply NTree.modifyAt_congr
            show body (S (last + 1)) = body _
            refine congrArg body (congrArg (NTree.node a) (funext fun i => ?_))
            split
            · rfl
            · rename_i h
              rw [hn' i (by omega)]; rfl
          rw [e]
        | some j =>
          obtain ⟨hkj, hjn, hnil⟩ := firstChildFrom_some hfc
          have hchild : ∀ i : Fin n, last + 1 ≤ i.val → (S (last + 1)).child i = ch i := by
            intro i hi; simp only [S, child_node]; rw [if_neg (by omega)]
          have hjn' : ch j ≠ nil := by rw [← hchild j hkj]; exact hjn
          have hnil' : ∀ i : Fin n, last + 1 ≤ i.val → i.val < j.val → ch i = nil := by
            intro i hi hij; rw [← hchild i hi]; exact hnil i hi hij
          rw [postFrom_some ch p _ j hkj hnil']
          dsimp only
          rw [hchild j hkj]
          have ef : (NTree.postPaths (ch j) (p ++ [j]) ++ postFrom ch p (j.val + 1) ++ [p]).length + m'
              = (NTree.postPaths (ch j) (p ++ [j])).length + ((postFrom ch p (j.val + 1) ++ [p]).length + m') := by
            simp; omega
          rw [ef, ih j hjn' (hall j) _ (p ++ [j]) (by rw [descend_append, hS]; simpa using hchild j hkj)]
          have e : (t.modifyAt (fun _ => S (last + 1)) p).modifyAt (fun _ => (ch j).postMap body) (p ++ [j])
              = t.modifyAt (fun _ => S (j.val + 1)) p := by
            rw [NTree.modifyAt_append, NTree.modifyAt_modifyAt _ _ (fun _ _ => by simp [S])]
            apply NTree.modifyAt_congr
            dsimp only [S]
            simp only [modifyAt]
            refine congrArg (NTree.node a) (funext fun i => ?_)
            by_cases hij : i = j
            · subst hij
              have h1 : ¬ i.val < last + 1 := by omega
              have h2 : i.val < i.val + 1 := by omega
              simp only [if_true, h1, h2, if_false]
              rw [modifyAt_nil _ _ hjn']
            · rw [if_neg hij]
              have hne : i.val ≠ j.val := fun h => hij (Fin.ext h)
              by_cases h1 : i.val < last + 1
              · rw [if_pos h1, if_pos (by omega)]
              · rw [if_neg h1]
                by_cases h2 : i.val < j.val + 1
                · rw [if_pos h2, hnil' i (by omega) (by omega)]; rfl
                · rw [if_neg h2]
          rw [e]
          have := ihc (n - (j.val + 1)) (by omega) (j.val + 1) rfl m' j.val rfl
          rw [this]
          rw [Option.map_map]
          refine congrArg (fun f => Option.map f _) (funext fun r => ?_)
          simp
    -- the first child
    rw [postEnqueue_node]
    obtain ⟨i0, hi0⟩ := hex
    cases hfc : firstChildFrom (NTree.node a ch) 0 with
    | none => exact absurd (firstChildFrom_none hfc i0 (by omega)) hi0
    | some j =>
      obtain ⟨_, hjn, hnil⟩ := firstChildFrom_some hfc
      dsimp only
      have e0 : NTree.postPaths (NTree.node a ch) p = postFrom ch p 0 ++ [p] := by
        simp only [NTree.postPaths, postFrom]
        simp
      have hnil' : ∀ i : Fin n, 0 ≤ i.val → i.val < j.val → ch i = nil := hnil
      rw [e0, postFrom_some ch p 0 j (by omega) hnil']
      have ef : (NTree.postPaths (ch j) (p ++ [j]) ++ postFrom ch p (j.val + 1) ++ [p]).length + m
          = (NTree.postPaths (ch j) (p ++ [j])).length + ((postFrom ch p (j.val + 1) ++ [p]).length + m) := by
        simp; omega
      rw [ef, List.append_assoc, ih j hjn (hall j) t (p ++ [j]) (by rw [descend_append, ht]; simp)]
      have e : t.modifyAt (fun _ => (ch j).postMap body) (p ++ [j]) = t.modifyAt (fun _ => S (j.val + 1)) p := by
        rw [NTree.modifyAt_append]
        apply NTree.modifyAt_congr
        rw [ht]
        dsimp only [S]
        simp only [modifyAt]
        refine congrArg (NTree.node a) (funext fun i => ?_)
        by_cases hij : i = j
        · subst hij
          have hjn2 : ch i ≠ nil := hjn
          rw [if_pos rfl, if_pos (by omega), modifyAt_nil _ _ hjn2]
        · rw [if_neg hij]
          have hne : i.val ≠ j.val := fun h => hij (Fin.ext h)
          by_cases h2 : i.val < j.val + 1
          · rw [if_pos h2, hnil' i (by omega) (by omega)]; rfl
          · rw [if_neg h2]
      rw [e]
      have := key (n - (j.val + 1)) (j.val + 1) rfl m j.val rfl
      rw [List.cons_append, List.nil_append, this, Option.map_map]
      refine congrArg (fun f => Option.map f _) (funext fun r => ?_)
      simp

end Wavemap
