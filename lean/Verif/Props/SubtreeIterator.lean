import Mathlib.Data.Fin.VecNotation
import Verif.Lemmas.SubtreeIterator
/-!
# C31: subtree iterators, C57: pruning of the octree container

A node is identified by the path of child numbers leading to it; it is allocated iff `t.descend path` is not null.
-/
namespace Wavemap
variable {n : Nat} {α : Type}
open NTree

theorem iterLoop_mono (next : List (List (Fin n)) → List (List (Fin n))) (fuel : Nat) (D L : List (List (Fin n)))
    (h : iterLoop next fuel D = some L) (fuel' : Nat) (hf : fuel ≤ fuel') : iterLoop next fuel' D = some L := by
  induction fuel generalizing D L fuel' with
  | zero =>
    cases D with
    | nil => rw [iterLoop] at h; rw [iterLoop]; exact h
    | cons p q => rw [iterLoop] at h; exact absurd h (by simp)
  | succ fuel ih =>
    cases D with
    | nil => rw [iterLoop] at h; rw [iterLoop]; exact h
    | cons p q =>
      obtain ⟨f, rfl⟩ : ∃ f, fuel' = f + 1 := ⟨fuel' - 1, by omega⟩
      rw [iterLoop] at h ⊢
      rw [Option.map_eq_some_iff] at h ⊢
      obtain ⟨L', h1, h2⟩ := h
      exact ⟨L', ih _ _ h1 f (by omega), h2⟩

theorem iterStart_ne (t : NTree n α) : ∀ q ∈ iterStart t, t.descend q ≠ nil := by
  intro q hq
  unfold iterStart at hq
  cases h : t.isNil
  · rw [h] at hq; simp at hq; subst hq; simpa using isNil_false_iff.1 h
  · rw [h] at hq; simp at hq

theorem iterStart_paths (t : NTree n α) :
    (iterStart t).flatMap (fun q => prePaths (t.descend q) q) = prePaths t [] := by
  unfold iterStart
  cases h : t.isNil
  · simp
  · rw [isNil_iff.1 h]; simp [prePaths]

/-- **C31** Depth-first preorder iteration terminates, visits every allocated node exactly once, and never visits a
node after one of its descendants. -/
theorem C31_preorder (t : NTree n α) :
    ∃ L, (∃ m, ∀ fuel ≥ m, iterLoop (preNext t) fuel (iterStart t) = some L) ∧
      (∀ p, p ∈ L ↔ t.descend p ≠ nil) ∧ L.Nodup ∧ L.Pairwise fun a b => ¬ (b <+: a) := by
  refine ⟨prePaths t [], ⟨(prePaths t []).length, fun fuel hf => ?_⟩, fun p => ?_, ?_, prePaths_order t []⟩
  · rw [pre_loop t fuel (iterStart t) (iterStart_ne t) (by rw [iterStart_paths]; exact hf), iterStart_paths]
  · rw [mem_prePaths]; simp
  · exact (prePaths_order t []).imp fun {a b} h => by rintro rfl; exact h (List.prefix_refl _)

/-- **C31** Breadth-first iteration terminates, visits every allocated node exactly once, by increasing depth. -/
theorem C31_breadth_first (t : NTree n α) :
    ∃ L, (∃ m, ∀ fuel ≥ m, iterLoop (bfsNext t) fuel (iterStart t) = some L) ∧
      (∀ p, p ∈ L ↔ t.descend p ≠ nil) ∧ L.Nodup ∧ L.Pairwise fun a b => a.length ≤ b.length := by
  have hs : (iterStart t).Pairwise (fun a b => a.length ≤ b.length) := by unfold iterStart; split <;> simp
  have hp : ∀ p q, p ∈ iterStart t → q ∈ iterStart t → q.length ≤ p.length + 1 := by
    intro p q hp hq; unfold iterStart at hp hq; split at hp <;> simp_all
  obtain ⟨L, h1, h2, h3, _⟩ := bfs_loop t (prePaths t []).length (iterStart t) (iterStart_ne t) hs hp
    (by rw [iterStart_paths])
  rw [iterStart_paths] at h2
  refine ⟨L, ⟨_, fun fuel hf => iterLoop_mono _ _ _ _ h1 fuel hf⟩, fun p => ?_, ?_, h3⟩
  · rw [h2.mem_iff, mem_prePaths]; simp
  · exact h2.nodup_iff.2 ((prePaths_order t []).imp fun {a b} h => by rintro rfl; exact h (List.prefix_refl _))

theorem post_run (body : NTree n α → NTree n α) (hb : ∀ s, s ≠ nil → body s ≠ nil) (t : NTree n α)
    (hwf : t.NoEmptyArray) (fuel : Nat) (hf : (postPaths t []).length ≤ fuel) :
    postorder body fuel t = some (postPaths t [], t.postMap body) := by
  unfold postorder
  by_cases ht : t = nil
  · subst ht
    rw [postEnqueue, postLoop]; rfl
  · obtain ⟨m, rfl⟩ : ∃ m, fuel = (postPaths t []).length + m := ⟨fuel - (postPaths t []).length, by omega⟩
    have := post_loop body hb t ht hwf t [] (by simp) [] m
    rw [List.append_nil] at this
    rw [this, postAdvance, postLoop, modifyAt_nil _ _ ht]
    simp

/-- **C31** Depth-first postorder iteration terminates, visits every allocated node exactly once, and never visits a
node before one of its descendants. Partial: every allocated children array must hold at least one child, see
`C31_postorder_fails`. -/
theorem C31_postorder_partial (t : NTree n α) (hwf : t.NoEmptyArray) :
    ∃ L, (∃ m, ∀ fuel ≥ m, postorder id fuel t = some (L, t)) ∧
      (∀ p, p ∈ L ↔ t.descend p ≠ nil) ∧ L.Nodup ∧ L.Pairwise fun a b => ¬ (a <+: b) := by
  refine ⟨postPaths t [], ⟨(postPaths t []).length, fun fuel hf => ?_⟩, fun p => ?_, ?_, postPaths_order t []⟩
  · have e : t.postMap id = t := by
      clear hwf hf
      induction t with
      | nil => rfl
      | leaf a => rfl
      | node a ch ih => simp only [postMap, ih, id]
    rw [post_run id (fun _ h => h) t hwf fuel hf, e]
  · rw [mem_postPaths]; simp
  · exact (postPaths_order t []).imp fun {a b} h => by rintro rfl; exact h (List.prefix_refl _)

/-- Trees that only ever had nodes allocated and written satisfy the hypothesis of `C31_postorder_partial`. -/
theorem C31_no_empty_array_alloc (dflt : α) (t : NTree n α) (h : t.NoEmptyArray) (p : List (Fin n)) :
    (t.allocPath dflt p).NoEmptyArray := by
  induction p generalizing t with
  | nil => cases t <;> exact h
  | cons i p ih =>
    have hne : ∀ s : NTree n α, s ≠ nil → s.allocPath dflt p ≠ nil := fun s hs => allocPath_ne_nil dflt s hs p
    cases t with
    | nil => exact trivial
    | leaf a =>
      show (∃ j, _) ∧ ∀ j, _
      have e : (NTree.leaf a : NTree n α).getOrAllocateChild i dflt = .leaf dflt := rfl
      refine ⟨⟨i, ?_⟩, fun j => ?_⟩
      · dsimp only; rw [if_pos rfl, e]; exact hne _ (by simp)
      · dsimp only; split
        · rw [e]; exact ih _ trivial
        · exact trivial
    | node a ch =>
      show (∃ j, _) ∧ ∀ j, _
      have hg : ((NTree.node a ch).getOrAllocateChild i dflt).NoEmptyArray := by
        unfold getOrAllocateChild
        rw [child_node]
        have := h.2 i
        cases hc : ch i with
        | nil => exact trivial
        | leaf b => exact trivial
        | node b ch' => rw [hc] at this; exact this
      refine ⟨⟨i, ?_⟩, fun j => ?_⟩
      · dsimp only; rw [if_pos rfl]; exact hne _ (getOrAllocateChild_ne_nil _ _ _)
      · dsimp only; split
        · exact ih _ hg
        · exact h.2 j

/-- **C31, violation** Postorder iteration over a tree in which the last child of a node was erased skips nodes: after
allocating the nodes (height 0, 0) and (height 1, 1) in a one-dimensional tree of height 2 and erasing the former,
three nodes are allocated (preorder visits all), but postorder visits only the root. -/
theorem C31_postorder_fails :
    let t := (((Ndtree.create (d := 1) 2 (0 : Int)).getOrAllocateNode ⟨0, ![0]⟩ 7).getOrAllocateNode ⟨1, ![1]⟩ 8)
    let u := (t.eraseNode ⟨0, ![0]⟩).1
    iterLoop (preNext u.root) 10 (iterStart u.root) = some [[], [0], [1]] ∧
    (postorder id 10 u.root).map Prod.fst = some [[]] := by decide +kernel

/-! ## C57: `Ndtree::prune` -/

/-- The tree holds nonzero data somewhere. -/
def HasNonzero (nz : α → Bool) (t : NTree n α) : Prop := ∃ r b, t.lookup r = some b ∧ nz b = true

theorem pruneBody_ne_nil (nz : α → Bool) (s : NTree n α) (hs : s ≠ nil) : pruneBody nz s ≠ nil := by
  cases s with
  | nil => exact absurd rfl hs
  | leaf a => simp [pruneBody]
  | node a ch => simp only [pruneBody]; split <;> simp

theorem postMap_prune_ne_nil (nz : α → Bool) (s : NTree n α) (hs : s ≠ nil) : s.postMap (pruneBody nz) ≠ nil := by
  cases s with
  | nil => exact absurd rfl hs
  | leaf a => exact pruneBody_ne_nil nz _ (by simp)
  | node a ch => exact pruneBody_ne_nil nz _ (by simp)

theorem hasNonzero_node (nz : α → Bool) (a : α) (ch : Fin n → NTree n α) :
    HasNonzero nz (.node a ch) ↔ nz a = true ∨ ∃ i, HasNonzero nz (ch i) := by
  constructor
  · rintro ⟨r, b, h1, h2⟩
    cases r with
    | nil => simp at h1; subst h1; exact Or.inl h2
    | cons i r => exact Or.inr ⟨i, r, b, by simpa using h1, h2⟩
  · rintro (h | ⟨i, r, b, h1, h2⟩)
    · exact ⟨[], a, rfl, h⟩
    · exact ⟨i :: r, b, by simpa using h1, h2⟩

theorem any_prune (nz : α → Bool) (ch : Fin n → NTree n α)
    (ih : ∀ i, ch i ≠ nil → (((ch i).postMap (pruneBody nz)).emptyNode nz = true ↔ ¬ HasNonzero nz (ch i))) :
    ((List.finRange n).any fun i => !((ch i).postMap (pruneBody nz)).isNil &&
      !((ch i).postMap (pruneBody nz)).emptyNode nz) = true ↔ ∃ i, HasNonzero nz (ch i) := by
  rw [List.any_eq_true]
  constructor
  · rintro ⟨i, _, hi⟩
    simp only [Bool.and_eq_true, Bool.not_eq_true'] at hi
    have hne : ch i ≠ nil := by
      intro h; rw [h] at hi; simp [postMap, isNil] at hi
    refine ⟨i, ?_⟩
    by_contra hc
    rw [(ih i hne).2 hc] at hi
    simp at hi
  · rintro ⟨i, hi⟩
    have hne : ch i ≠ nil := by
      intro h; rw [h] at hi; obtain ⟨r, b, h1, _⟩ := hi; simp at h1
    refine ⟨i, List.mem_finRange i, ?_⟩
    simp only [Bool.and_eq_true, Bool.not_eq_true']
    refine ⟨isNil_false_iff.2 (postMap_prune_ne_nil nz _ hne), ?_⟩
    cases h : ((ch i).postMap (pruneBody nz)).emptyNode nz
    · rfl
    · exact absurd hi ((ih i hne).1 h)

theorem prune_empty_iff (nz : α → Bool) (t : NTree n α) (ht : t ≠ nil) :
    (t.postMap (pruneBody nz)).emptyNode nz = true ↔ ¬ HasNonzero nz t := by
  induction t with
  | nil => exact absurd rfl ht
  | leaf a =>
    simp only [postMap, pruneBody, emptyNode, Bool.not_eq_true']
    constructor
    · rintro h ⟨r, b, h1, h2⟩
      cases r with
      | nil => simp at h1; subst h1; rw [h] at h2; cases h2
      | cons i r => simp at h1
    · intro h
      cases hz : nz a
      · rfl
      · exact absurd ⟨[], a, rfl, hz⟩ h
  | node a ch ih =>
    rw [hasNonzero_node]
    simp only [postMap, pruneBody]
    have key := any_prune nz ch fun i h => ih i h
    by_cases hx : ∃ i, HasNonzero nz (ch i)
    · rw [if_pos (key.2 hx)]
      simp only [emptyNode, Bool.false_eq_true, false_iff, not_not]
      exact Or.inr hx
    · rw [if_neg (fun h => hx (key.1 h))]
      simp only [emptyNode, Bool.not_eq_true']
      constructor
      · rintro h (h2 | h2)
        · rw [h] at h2; cases h2
        · exact hx h2
      · intro h
        cases hz : nz a
        · rfl
        · exact absurd (Or.inl hz) h

theorem prune_lookup (nz : α → Bool) (t : NTree n α) (q : List (Fin n)) (a : α) :
    (t.postMap (pruneBody nz)).lookup q = some a ↔
      t.lookup q = some a ∧ (q = [] ∨ HasNonzero nz (t.descend q)) := by
  induction t generalizing q with
  | nil => simp [postMap]
  | leaf b =>
    simp only [postMap, pruneBody]
    cases q with
    | nil => simp
    | cons i q => simp
  | node b ch ih =>
    simp only [postMap, pruneBody]
    have key := any_prune nz ch fun i h => prune_empty_iff nz (ch i) h
    cases q with
    | nil => split <;> simp
    | cons i q =>
      have hdesc : ∀ r, HasNonzero nz ((ch i).descend r) → HasNonzero nz (ch i) := by
        rintro r ⟨s, c, h1, h2⟩
        exact ⟨r ++ s, c, by rw [lookup_append]; exact h1, h2⟩
      simp only [lookup_cons, child_node, descend_cons, List.cons_ne_nil, false_or]
      by_cases hx : ∃ i, HasNonzero nz (ch i)
      · rw [if_pos (key.2 hx)]
        simp only [child_node]
        by_cases hn : ch i = nil
        · rw [hn]; simp [postMap, emptyNode]
        · by_cases he : ((ch i).postMap (pruneBody nz)).emptyNode nz = true
          · rw [if_pos he]
            have := (prune_empty_iff nz _ hn).1 he
            constructor
            · intro h; simp at h
            · rintro ⟨_, h⟩; exact absurd (hdesc q h) this
          · rw [if_neg he, ih]
            have hh : HasNonzero nz (ch i) := by
              by_contra hc; exact he ((prune_empty_iff nz _ hn).2 hc)
            constructor
            · rintro ⟨h1, h2⟩
              refine ⟨h1, ?_⟩
              rcases h2 with rfl | h2
              · simpa using hh
              · exact h2
            · rintro ⟨h1, h2⟩; exact ⟨h1, Or.inr h2⟩
      · rw [if_neg (fun h => hx (key.1 h))]
        constructor
        · intro h; simp at h
        · rintro ⟨_, h⟩; exact absurd ⟨i, hdesc q h⟩ hx

/-- **C57** Pruning the octree container terminates; it keeps the root and exactly those nodes below which (or at which)
nonzero data is stored, with their data unchanged. Partial: trees in which an allocated children array is empty are
excluded, see `C57_prune_fails`; what still holds for them is `C57_prune_lossless`. -/
theorem C57_prune_exact_partial (nz : α → Bool) (t : NTree n α) (hwf : t.NoEmptyArray) :
    ∃ t' L, (∃ m, ∀ fuel ≥ m, postorder (pruneBody nz) fuel t = some (L, t')) ∧
      ∀ q a, t'.lookup q = some a ↔
        t.lookup q = some a ∧ (q = [] ∨ ∃ r b, t.lookup (q ++ r) = some b ∧ nz b = true) := by
  refine ⟨t.postMap (pruneBody nz), postPaths t [], ⟨(postPaths t []).length, fun fuel hf =>
    post_run _ (pruneBody_ne_nil nz) t hwf fuel hf⟩, fun q a => ?_⟩
  rw [prune_lookup]
  simp only [HasNonzero, lookup_append]

/-- What one execution of the prune loop body does to the lookups below the node. -/
theorem pruneBody_lookup (nz : α → Bool) (s : NTree n α) (q : List (Fin n)) :
    (pruneBody nz s).lookup q = s.lookup q ∨
      ((pruneBody nz s).lookup q = none ∧ ∃ a, s.lookup q = some a ∧ nz a = false) := by
  cases s with
  | nil => exact Or.inl rfl
  | leaf a => exact Or.inl rfl
  | node a ch =>
    have hempty : ∀ (i : Fin n) (r : List (Fin n)), (ch i).emptyNode nz = true →
        ((ch i).lookup r = none ∨ ∃ a, (ch i).lookup r = some a ∧ nz a = false) := by
      intro i r he
      cases hc : ch i with
      | nil => left; simp
      | leaf b =>
        rw [hc] at he
        cases r with
        | nil => right; exact ⟨b, rfl, by simpa [emptyNode] using he⟩
        | cons j r => left; simp
      | node b ch' => rw [hc] at he; simp [emptyNode] at he
    simp only [pruneBody]
    cases q with
    | nil => left; split <;> rfl
    | cons i q =>
      split
      · simp only [lookup_cons, child_node]
        by_cases he : (ch i).emptyNode nz = true
        · rw [if_pos he]
          rcases hempty i q he with h | h
          · left; simp [h]
          · right; exact ⟨by simp, h⟩
        · rw [if_neg he]; exact Or.inl rfl
      · rename_i h
        rw [Bool.not_eq_true, List.any_eq_false] at h
        have := h i (List.mem_finRange i)
        simp only [lookup_cons, child_leaf, child_node]
        by_cases hn : ch i = nil
        · left; rw [hn]
        · rw [isNil_false_iff.2 hn] at this
          simp at this
          rcases hempty i q this with h | h
          · left; simp [h]
          · right; exact ⟨by simp, h⟩

/-- **C57** Whatever the tree, pruning never changes stored data and never removes a node holding nonzero data. -/
theorem C57_prune_lossless (nz : α → Bool) (fuel : Nat) (t t' : NTree n α) (L : List (List (Fin n)))
    (h : postorder (pruneBody nz) fuel t = some (L, t')) (q : List (Fin n)) :
    t'.lookup q = t.lookup q ∨ (t'.lookup q = none ∧ ∃ a, t.lookup q = some a ∧ nz a = false) := by
  unfold postorder at h
  generalize postEnqueue t [] = S at h
  induction fuel generalizing t S L with
  | zero =>
    cases S with
    | nil => rw [postLoop] at h; cases h; exact Or.inl rfl
    | cons x S => obtain ⟨p, k⟩ := x; rw [postLoop] at h; exact absurd h (by simp)
  | succ fuel ih =>
    cases S with
    | nil => rw [postLoop] at h; cases h; exact Or.inl rfl
    | cons x S =>
      obtain ⟨p, k⟩ := x
      rw [postLoop] at h
      rw [Option.map_eq_some_iff] at h
      obtain ⟨⟨L', t''⟩, h1, h2⟩ := h
      have h3 : t'' = t' := congrArg Prod.snd h2
      rw [h3] at h1
      have step : (t.modifyAt (pruneBody nz) p).lookup q = t.lookup q ∨
          ((t.modifyAt (pruneBody nz) p).lookup q = none ∧ ∃ a, t.lookup q = some a ∧ nz a = false) := by
        by_cases hp : p <+: q
        · obtain ⟨r, rfl⟩ := hp
          have e : (t.modifyAt (pruneBody nz) p).lookup (p ++ r) = (pruneBody nz (t.descend p)).lookup r := by
            unfold lookup
            rw [modifyAt_descend]
            cases hn : (t.descend p).isNil
            · simp
            · rw [isNil_iff.1 hn]; simp [pruneBody]
          rw [e, lookup_append]
          exact pruneBody_lookup nz _ r
        · exact Or.inl (modifyAt_lookup_of_not_prefix _ _ _ _ hp)
      rcases ih _ _ _ h1 with h4 | ⟨h4, b, h5, h6⟩
      · rw [h4]; exact step
      · rcases step with h7 | ⟨h7, _⟩
        · exact Or.inr ⟨h4, b, by rw [← h7]; exact h5, h6⟩
        · rw [h7] at h5; exact absurd h5 (by simp)

/-- **C57, violation** In the tree of `C31_postorder_fails` the two children of the root hold zeros, yet pruning leaves
the first one allocated, because the iterator never reaches it before its parent. -/
theorem C57_prune_fails :
    let t := (((Ndtree.create (d := 1) 2 (0 : Int)).getOrAllocateNode ⟨0, ![0]⟩ 0).getOrAllocateNode ⟨1, ![1]⟩ 0)
    let u := (t.eraseNode ⟨0, ![0]⟩).1
    (postorder (pruneBody fun x => decide (x ≠ 0)) 10 u.root).map (fun r => (r.2.lookup [0], r.2.lookup [1]))
      = some (some 0, none) := by decide +kernel

/-- Non-vacuity of the `NoEmptyArray` hypotheses: a tree with two levels of nodes. -/
example : (((Ndtree.create (d := 1) 2 (0 : Int)).getOrAllocateNode ⟨0, ![0]⟩ 0).getOrAllocateNode ⟨1, ![1]⟩ 5).root.NoEmptyArray :=
  C31_no_empty_array_alloc _ _ (C31_no_empty_array_alloc _ (.leaf 0) trivial _) _

/-- Pruning removes the zero leaves, then the array of a node that has none left, and keeps the rest. -/
example : let t : NTree 2 Nat := .node 1 ![.node 3 ![.leaf 0, .nil], .node 2 ![.leaf 0, .leaf 5]]
    ((postorder (pruneBody fun a => a != 0) 10 t).map fun r =>
      [[], [0], [0, 0], [1], [1, 0], [1, 1]].map fun q => (t.lookup q, r.2.lookup q)) =
    some [(some 1, some 1), (some 3, some 3), (some 0, none), (some 2, some 2), (some 0, none), (some 5, some 5)] := by
  decide +kernel

end Wavemap
