import Verif.Lemmas.ClassifiedQuery
/-! # Leaves of classified maps -/
namespace Wavemap
open NdtreeIndex Haar NdtreeBlockHash

namespace CTree

theorem leaves_eq (term : Int) (t : CTree) (ht : t ≠ .nil) (n : NdtreeIndex 3) :
    leaves term t n = (List.finRange (2 ^ 3)).flatMap fun c =>
      if (NTree.child t c).isNil = false ∧ term < (n.computeChildIndex c.val).height then leaves term (NTree.child t c) (n.computeChildIndex c.val)
      else [(n.computeChildIndex c.val, (classData t).childOccupancyMask c)] := by
  cases t with
  | nil => exact absurd rfl ht
  | leaf a =>
    rw [leaves, List.map_eq_flatMap]
    simp only [NTree.child_leaf, NTree.isNil, Bool.true_eq_false, false_and, if_false]
    rfl
  | node a ch => rw [leaves]; rfl

theorem leavesMatching_eq (mask : BitVec 8) (term : Int) (t : CTree) (ht : t ≠ .nil) (n : NdtreeIndex 3) :
    leavesMatching mask term t n = (List.finRange (2 ^ 3)).flatMap fun c =>
      matchingChild mask term (classData t) n c (leavesMatching mask term (NTree.child t c) (n.computeChildIndex c.val)) := by
  cases t with
  | nil => exact absurd rfl ht
  | leaf a => rw [leavesMatching]; rfl
  | node a ch => rw [leavesMatching]; rfl

/-- What is true of every reported leaf of `forEachLeaf`. -/
structure LeafOk (C : Index 3 → OccClass) (term : Int) (n : NdtreeIndex 3) (l : NdtreeIndex 3 × BitVec 8) : Prop where
  mask : ∀ k, InMask l.2 k ↔ Occurs C l.1 k
  uniform : term < l.1.height → Uniform C l.1
  height : 0 ≤ l.1.height ∧ l.1.height < n.height
  inside : ∀ j, NodeRegion l.1 j → NodeRegion n j

theorem leaves_ok {C : Index 3 → OccClass} (term : Int) : ∀ (h : Nat) (t : CTree) (n : NdtreeIndex 3), Good C true h t n → n.height = h →
    ∀ l ∈ leaves term t n, LeafOk C term n l := by
  intro h
  induction h with
  | zero => intro t n hg; exact hg.elim
  | succ h ih =>
    intro t n hg hn l hl
    rw [leaves_eq term t hg.ne_nil, List.mem_flatMap] at hl
    obtain ⟨c, -, hl⟩ := hl
    obtain ⟨hb, hgc, hex⟩ := hg.2 c
    have hh : (n.computeChildIndex c.val).height = h := by show n.height - 1 = _; omega
    split at hl
    · next hc =>
      have hu : ¬ Uniform C (n.computeChildIndex c.val) := fun hu => by
        rw [hex rfl hu] at hc; exact absurd hc.1 (by simp [NTree.isNil])
      have := ih _ _ (hgc hu) hh l hl
      exact ⟨this.mask, this.uniform, ⟨this.height.1, by have := this.height.2; omega⟩, fun j hj => child_region (by omega) (this.inside j hj)⟩
    · next hc =>
      rw [List.mem_singleton] at hl
      subst hl
      refine ⟨fun k => (inMask_child _ _ k).trans (hb k), fun ht => ?_, ⟨by rw [hh]; omega, by rw [hh]; omega⟩, fun j hj => child_region (by omega) hj⟩
      by_contra hu
      apply hc
      refine ⟨?_, ht⟩
      have := (hgc hu).ne_nil
      cases hx : (NTree.child t c).isNil with
      | false => rfl
      | true => exact absurd (NTree.isNil_iff.1 hx) this

theorem filter_outside {α : Type} (l : List (NdtreeIndex 3 × α)) (n : NdtreeIndex 3) (h : ∀ e ∈ l, ∀ j, NodeRegion e.1 j → NodeRegion n j) (j : Index 3)
    (hj : ¬ NodeRegion n j) : l.filter (fun e => decide (NodeRegion e.1 j)) = [] := by
  rw [List.filter_eq_nil_iff]
  intro e he hd
  rw [decide_eq_true_eq] at hd
  exact hj (h e he j hd)

theorem leaves_cover {C : Index 3 → OccClass} (term : Int) (j : Index 3) : ∀ (h : Nat) (t : CTree) (n : NdtreeIndex 3), Good C true h t n → n.height = h →
    NodeRegion n j → ∃ l, (leaves term t n).filter (fun e => decide (NodeRegion e.1 j)) = [l] := by
  intro h
  induction h with
  | zero => intro t n hg; exact hg.elim
  | succ h ih =>
    intro t n hg hn hj
    have hh : ∀ c : Nat, (n.computeChildIndex c).height = h := fun c => by show n.height - 1 = _; omega
    obtain ⟨hpart, huniq⟩ := C03_children_partition n (by omega) j
    obtain ⟨c0, hc0, hj0⟩ := hpart.1 hj
    have step : ∀ c : Fin (2 ^ 3), (NTree.child t c).isNil = false →
        Good C true h (NTree.child t c) (n.computeChildIndex c.val) := by
      intro c hc
      obtain ⟨-, hgc, hex⟩ := hg.2 c
      exact hgc fun hu => by rw [hex rfl hu] at hc; exact absurd hc (by simp [NTree.isNil])
    rw [leaves_eq term t hg.ne_nil, filter_flatMap_single (List.finRange (2 ^ 3)) (List.nodup_finRange _) ⟨c0, hc0⟩ (List.mem_finRange _)]
    · by_cases hc : (NTree.child t ⟨c0, hc0⟩).isNil = false ∧ term < (n.computeChildIndex c0).height
      · rw [if_pos hc]
        exact ih _ _ (step _ hc.1) (hh _) hj0
      · rw [if_neg hc]
        simp only [List.filter_cons, hj0, decide_true, if_true, List.filter_nil]
        exact ⟨_, rfl⟩
    · intro c hne
      have hout : ¬ NodeRegion (n.computeChildIndex c.val) j := fun hr => hne (Fin.ext (huniq _ c.isLt _ hc0 hr hj0))
      by_cases hc : (NTree.child t c).isNil = false ∧ term < (n.computeChildIndex c.val).height
      · rw [if_pos hc]
        exact filter_outside _ _ (fun e he => (leaves_ok term h _ _ (step _ hc.1) (hh _) e he).inside) j hout
      · rw [if_neg hc]
        simp [hout]

/-- What is true of every reported leaf of `forEachLeafMatching`. -/
structure MatchOk (C : Index 3 → OccClass) (wanted : BitVec 8) (term : Int) (n : NdtreeIndex 3) (l : NdtreeIndex 3 × BitVec 8) : Prop where
  mask : ∀ k, InMask l.2 k ↔ Occurs C l.1 k
  some : ∃ k, Occurs C l.1 k ∧ InMask wanted k
  all : term < l.1.height → ∀ k, Occurs C l.1 k → InMask wanted k
  height : 0 ≤ l.1.height ∧ l.1.height < n.height
  inside : ∀ j, NodeRegion l.1 j → NodeRegion n j

/-- The three cases for a child. -/
theorem matchingChild_cases {C : Index 3 → OccClass} {ex : Bool} {h : Nat} {t : CTree} {n : NdtreeIndex 3} (hg : Good C ex (h + 1) t n)
    (mask : BitVec 8) (term : Int) (c : Fin (2 ^ 3)) (below : List (NdtreeIndex 3 × BitVec 8)) :
    ((¬ ∃ k, Occurs C (n.computeChildIndex c.val) k ∧ InMask mask k) ∧ matchingChild mask term (classData t) n c below = []) ∨
    ((∃ k, Occurs C (n.computeChildIndex c.val) k ∧ InMask mask k) ∧
      (term < (n.computeChildIndex c.val).height → ∀ k, Occurs C (n.computeChildIndex c.val) k → InMask mask k) ∧
      matchingChild mask term (classData t) n c below = [(n.computeChildIndex c.val, (classData t).childOccupancyMask c)]) ∨
    (Good C ex h (NTree.child t c) (n.computeChildIndex c.val) ∧ matchingChild mask term (classData t) n c below = below) := by
  obtain ⟨hb, hgc, -⟩ := hg.2 c
  have hmask : ∀ k, InMask ((classData t).childOccupancyMask c) k ↔ Occurs C (n.computeChildIndex c.val) k := fun k => (inMask_child _ _ k).trans (hb k)
  have hfull : OccClassifier.isFully ((classData t).childOccupancyMask c) mask = true ↔
      ∀ k, Occurs C (n.computeChildIndex c.val) k → InMask mask k := by
    unfold ClassData.childOccupancyMask at hmask ⊢
    rw [isFully_iff]
    exact forall_congr' fun k => by rw [hmask]
  have hhas : OccClassifier.has ((classData t).childOccupancyMask c) mask = true ↔
      ∃ k, Occurs C (n.computeChildIndex c.val) k ∧ InMask mask k := by
    unfold ClassData.childOccupancyMask at hmask ⊢
    rw [has_iff]
    exact exists_congr fun k => by rw [hmask]
  unfold matchingChild
  by_cases h1 : OccClassifier.has ((classData t).childOccupancyMask c) mask = true
  · rw [if_neg (by simp [h1])]
    right
    by_cases h2 : OccClassifier.isFully ((classData t).childOccupancyMask c) mask = true ∨ (n.computeChildIndex c.val).height ≤ term
    · rw [if_pos h2]
      left
      refine ⟨hhas.1 h1, fun ht => ?_, rfl⟩
      rcases h2 with h2 | h2
      · exact hfull.1 h2
      · omega
    · rw [if_neg h2]
      right
      rw [not_or] at h2
      refine ⟨hgc fun hu => ?_, rfl⟩
      apply h2.1
      rw [hfull]
      rw [uniform_iff] at hu
      obtain ⟨k, hk⟩ := hu
      obtain ⟨k1, hk1, hk2⟩ := hhas.1 h1
      intro k' hk'
      rw [(hk k').1 hk', ← (hk k1).1 hk1]; exact hk2
  · rw [if_pos (by simpa using h1)]
    exact Or.inl ⟨fun h => h1 (hhas.2 h), rfl⟩

theorem matching_ok {C : Index 3 → OccClass} {ex : Bool} (mask : BitVec 8) (term : Int) : ∀ (h : Nat) (t : CTree) (n : NdtreeIndex 3),
    Good C ex h t n → n.height = h → ∀ l ∈ leavesMatching mask term t n, MatchOk C mask term n l := by
  intro h
  induction h with
  | zero => intro t n hg; exact hg.elim
  | succ h ih =>
    intro t n hg hn l hl
    rw [leavesMatching_eq mask term t hg.ne_nil, List.mem_flatMap] at hl
    obtain ⟨c, -, hl⟩ := hl
    obtain ⟨hb, -, -⟩ := hg.2 c
    have hh : (n.computeChildIndex c.val).height = h := by show n.height - 1 = _; omega
    rcases matchingChild_cases hg mask term c (leavesMatching mask term (NTree.child t c) (n.computeChildIndex c.val)) with
      ⟨-, e⟩ | ⟨h1, h2, e⟩ | ⟨hgc, e⟩
    · rw [e] at hl; exact (List.not_mem_nil hl).elim
    · rw [e, List.mem_singleton] at hl
      subst hl
      exact ⟨fun k => (inMask_child _ _ k).trans (hb k), h1, h2, ⟨by rw [hh]; omega, by rw [hh]; omega⟩, fun j hj => child_region (by omega) hj⟩
    · rw [e] at hl
      have := ih _ _ hgc hh l hl
      exact ⟨this.mask, this.some, this.all, ⟨this.height.1, by have := this.height.2; omega⟩, fun j hj => child_region (by omega) (this.inside j hj)⟩

theorem matching_cover {C : Index 3 → OccClass} {ex : Bool} (mask : BitVec 8) (term : Int) (j : Index 3) : ∀ (h : Nat) (t : CTree) (n : NdtreeIndex 3),
    Good C ex h t n → n.height = h → NodeRegion n j →
    ((leavesMatching mask term t n).filter (fun e => decide (NodeRegion e.1 j))).length ≤ 1 ∧
    (InMask mask (C j) → ∃ l, (leavesMatching mask term t n).filter (fun e => decide (NodeRegion e.1 j)) = [l]) := by
  intro h
  induction h with
  | zero => intro t n hg; exact hg.elim
  | succ h ih =>
    intro t n hg hn hj
    have hh : ∀ c : Nat, (n.computeChildIndex c).height = h := fun c => by show n.height - 1 = _; omega
    obtain ⟨hpart, huniq⟩ := C03_children_partition n (by omega) j
    obtain ⟨c0, hc0, hj0⟩ := hpart.1 hj
    rw [leavesMatching_eq mask term t hg.ne_nil,
      filter_flatMap_single (List.finRange (2 ^ 3)) (List.nodup_finRange _) ⟨c0, hc0⟩ (List.mem_finRange _)]
    · rcases matchingChild_cases hg mask term ⟨c0, hc0⟩ (leavesMatching mask term (NTree.child t ⟨c0, hc0⟩) (n.computeChildIndex c0)) with
        ⟨h1, e⟩ | ⟨h1, h2, e⟩ | ⟨hgc, e⟩
      · rw [e]
        refine ⟨by simp, fun hm => ?_⟩
        exact absurd ⟨C j, ⟨j, hj0, rfl⟩, hm⟩ h1
      · rw [e]
        simp only [List.filter_cons, hj0, decide_true, if_true, List.filter_nil]
        exact ⟨by simp, fun _ => ⟨_, rfl⟩⟩
      · rw [e]
        exact ih _ _ hgc (hh _) hj0
    · intro c hne
      have hout : ¬ NodeRegion (n.computeChildIndex c.val) j := fun hr => hne (Fin.ext (huniq _ c.isLt _ hc0 hr hj0))
      rcases matchingChild_cases hg mask term c (leavesMatching mask term (NTree.child t c) (n.computeChildIndex c.val)) with
        ⟨-, e⟩ | ⟨-, -, e⟩ | ⟨hgc, e⟩
      · rw [e]; rfl
      · rw [e]; simp [hout]
      · rw [e]
        exact filter_outside _ _ (fun e he => (matching_ok mask term h _ _ hgc (hh _) e he).inside) j hout

end CTree

/-- Only the block around a cell contributes leaves at the cell. -/
theorem filter_flatMap_blocks {α β : Type} (l : SpatialHash 3 β) (hl : l.keys.Nodup) (f : Index 3 × β → List α) (p : α → Bool) (k : Index 3) (b : β)
    (hb : l.getBlock k = some b) (h : ∀ e ∈ l, e.1 ≠ k → (f e).filter p = []) : (l.flatMap f).filter p = (f (k, b)).filter p := by
  have hmem := SpatialHash.mem_of_getBlock hb
  clear hb
  induction l with
  | nil => exact (List.not_mem_nil hmem).elim
  | cons e l ih =>
    rw [List.flatMap_cons, List.filter_append]
    have hl' : e.1 ∉ SpatialHash.keys l ∧ (SpatialHash.keys l).Nodup := List.nodup_cons.1 hl
    rcases List.mem_cons.1 hmem with rfl | hm
    · have : (l.flatMap f).filter p = [] := by
        rw [List.filter_flatMap, List.flatMap_eq_nil_iff]
        intro x hx
        refine h x (List.mem_cons_of_mem _ hx) fun hk => hl'.1 ?_
        have hm := List.mem_map_of_mem (f := Prod.fst) hx
        rw [hk] at hm; exact hm
      rw [this, List.append_nil]
    · have hne : e.1 ≠ k := fun hk => hl'.1 (by rw [hk]; exact List.mem_map_of_mem (f := Prod.fst) hm)
      rw [h e (List.mem_cons_self ..) hne, List.nil_append]
      exact ih hl'.2 (fun x hx => h x (List.mem_cons_of_mem _ hx)) hm

end Wavemap
