import Mathlib.Data.Fin.VecNotation
import Mathlib.Data.Fintype.Basic
import Mathlib.Tactic.FinCases
import Mathlib.Tactic.Linarith
import Mathlib.Tactic.Ring
import Verif.Model.Neighbors
import Verif.Props.Iterate
import Verif.Lemmas.Bits
/-!
# C48: neighbourhoods and adjacency
-/
namespace Wavemap

/-! ## Specification -/

/-- The intersection of the closed unit cell at `0` with the one at `offset` is not empty and has dimension `k`: along
each axis the intervals `[0, 1]` and `[o, o + 1]` meet, and along exactly `k` axes they meet in more than a point. -/
def ContactDim {d : Nat} (offset : Index d) (k : Nat) : Prop :=
  (∀ i, max 0 (offset i) ≤ min 1 (offset i + 1)) ∧
  (Finset.univ.filter fun i => max 0 (offset i) < min 1 (offset i + 1)).card = k

/-- What each adjacency type means. -/
def SharesContact {d : Nat} (offset : Index d) : Adjacency → Prop
  | .sharedVertex => ContactDim offset 0
  | .sharedEdge => ContactDim offset 1
  | .sharedFace => ContactDim offset 2
  | .sharedCube => ContactDim offset 3
  | .anyDisjoint => (∃ k, ContactDim offset k) ∧ ¬ ContactDim offset d
  | .any => ∃ k, ContactDim offset k
  | .none => False

/-! ## Proofs -/

variable {d : Nat}

theorem meet_iff (o : Int) : max 0 o ≤ min 1 (o + 1) ↔ |o| ≤ 1 := by
  rw [abs_le]; omega

theorem meet_lt_iff (o : Int) : max 0 o < min 1 (o + 1) ↔ o = 0 := by omega

theorem contactDim_iff (o : Index d) (k : Nat) :
    ContactDim o k ↔ (∀ i, |o i| ≤ 1) ∧ (Finset.univ.filter fun i => o i = 0).card = k := by
  unfold ContactDim
  simp only [meet_iff, meet_lt_iff]

theorem zeros_card (o : Index d) (h : ∀ i, |o i| ≤ 1) :
    ((Finset.univ.filter fun i => o i = 0).card : Int) = d - ∑ i, |o i| := by
  have e : ∀ i, |o i| = if o i = 0 then 0 else 1 := by
    intro i
    have := h i
    split
    · rename_i h0; rw [h0]; rfl
    · rename_i h0
      have : 0 < |o i| := abs_pos.2 h0
      omega
  have e2 : ∑ i, |o i| = ∑ i, (if o i = 0 then (0 : Int) else 1) := Finset.sum_congr rfl fun i _ => e i
  have e3 : (d : Int) = ∑ _i : Fin d, (1 : Int) := by simp
  rw [e2, Finset.card_filter, e3, ← Finset.sum_sub_distrib]
  push_cast
  refine Finset.sum_congr rfl fun i _ => ?_
  split <;> rfl

theorem computeAdjacency_eq (o : Index d) :
    (∀ k, ContactDim o k → computeAdjacency o = .ofId k) ∧ ((¬ ∃ k, ContactDim o k) → computeAdjacency o = .none) := by
  have hany : ((List.finRange d).any fun i => decide (1 < |o i|)) = true ↔ ¬ ∀ i, |o i| ≤ 1 := by
    rw [List.any_eq_true]
    constructor
    · rintro ⟨i, _, h⟩ hall
      simp only [decide_eq_true_eq] at h
      have := hall i; omega
    · intro h
      rw [not_forall] at h
      obtain ⟨i, hi⟩ := h
      exact ⟨i, List.mem_finRange i, by simp only [decide_eq_true_eq]; omega⟩
  unfold computeAdjacency
  constructor
  · intro k hk
    rw [contactDim_iff] at hk
    rw [if_neg (by rw [hany]; exact not_not.2 hk.1)]
    have := zeros_card o hk.1
    rw [hk.2] at this
    congr 1
    have h0 : 0 ≤ ∑ i, |o i| := Finset.sum_nonneg fun i _ => abs_nonneg _
    omega
  · intro h
    rw [if_pos]
    rw [hany]
    intro hall
    exact h ⟨_, (contactDim_iff o _).2 ⟨hall, rfl⟩⟩

theorem contactDim_le (o : Index d) (k : Nat) (h : ContactDim o k) : k ≤ d := by
  rw [← h.2]
  exact (Finset.card_filter_le _ _).trans (by simp)

theorem mask_table : ∀ d < 4, ∀ k ≤ d, ∀ a : Adjacency,
    decide ((Adjacency.ofId k).toMask d &&& a.toMask d ≠ 0) = match a with
      | .sharedVertex => decide (k = 0) | .sharedEdge => decide (k = 1) | .sharedFace => decide (k = 2)
      | .sharedCube => decide (k = 3) | .anyDisjoint => decide (k ≠ d) | .any => true | .none => false := by
  intro d hd k hk a
  revert d k
  cases a <;> decide +kernel

/-- **C48** The adjacency test is true exactly for the offsets of cells sharing the given kind of contact. -/
theorem C48_is_adjacent (hd : d ≤ 3) (o : Index d) (a : Adjacency) : isAdjacent o a = true ↔ SharesContact o a := by
  unfold isAdjacent isAdjacentMask
  obtain ⟨h1, h2⟩ := computeAdjacency_eq o
  by_cases hc : ∃ k, ContactDim o k
  · obtain ⟨k, hk⟩ := hc
    have hkd := contactDim_le o k hk
    rw [h1 k hk, mask_table d (by omega) k hkd a]
    have huniq : ∀ m, ContactDim o m ↔ k = m := by
      intro m
      constructor
      · intro hm; rw [← hk.2, ← hm.2]
      · rintro rfl; exact hk
    cases a <;> simp only [SharesContact, huniq, decide_eq_true_eq, exists_eq', true_and, ne_eq, Bool.false_eq_true]
  · rw [h2 hc]
    have hno : ∀ m, ¬ ContactDim o m := fun m hm => hc ⟨m, hm⟩
    have : ∀ a : Adjacency, decide (Adjacency.toMask d .none &&& a.toMask d ≠ 0) = false := by
      intro a; simp [Adjacency.toMask, Adjacency.toId]
    rw [this]
    cases a <;> simp [SharesContact, hno]

/-- **C48** Adjacency of cells is symmetric, and is the contact between the two cells. -/
theorem C48_symmetric (i1 i2 : Index d) (a : Adjacency) : areAdjacent i1 i2 a = areAdjacent i2 i1 a := by
  unfold areAdjacent isAdjacent isAdjacentMask
  have : computeAdjacency (fun i => i1 i - i2 i) = computeAdjacency (fun i => i2 i - i1 i) := by
    unfold computeAdjacency
    have e : ∀ i, |i1 i - i2 i| = |i2 i - i1 i| := fun i => abs_sub_comm _ _
    simp only [e]
  rw [this]

theorem indexOfList_ofFn (o : Index d) : indexOfList (List.ofFn o) = some o := by
  unfold indexOfList
  rw [dif_pos (by simp)]
  simp

theorem mapM_some_iff {β γ : Type} (f : β → Option γ) (l : List β) (m : List γ) :
    l.mapM f = some m ↔ List.Forall₂ (fun x y => f x = some y) l m := by
  induction l generalizing m with
  | nil =>
    simp only [List.mapM_nil]
    constructor
    · intro h; cases h; exact List.Forall₂.nil
    · intro h; cases h; rfl
  | cons x l ih =>
    rw [List.mapM_cons]
    constructor
    · intro h
      cases hx : f x with
      | none => rw [hx] at h; exact absurd h (by simp)
      | some y =>
        rw [hx] at h
        cases hl : l.mapM f with
        | none => rw [hl] at h; exact absurd h (by simp)
        | some m' =>
          rw [hl] at h
          cases h
          exact List.Forall₂.cons hx ((ih m').1 hl)
    · intro h
      cases h with
      | cons hx hl => rw [hx, (ih _).2 hl]; rfl

/-- **C48** The generated neighbour offsets are exactly the offsets of cells that share the given kind of contact with
the centre cell, without duplicates, and their number is the size `numNeighbors` of the array they are stored in. -/
theorem C48_offsets (hd : 0 < d ∧ d ≤ 3) (a : Adjacency) :
    ∃ L, generateIndexOffsets d a = some L ∧ (∀ o, o ∈ L ↔ SharesContact o a) ∧ L.Nodup ∧
      L.length = numNeighbors d a := by
  obtain ⟨V, ⟨N, hN⟩, h1, h2, h3, h4⟩ := C29_grid_iteration hd.1 (fun _ : Fin d => -1) (fun _ => 1) (by intro i; simp)
  -- the fuel suffices: in each dimension the loop ends after 3^d steps
  have hfin : ∃ V', gridVisit (gridBounds (fun _ : Fin d => -1) (fun _ => 1))
      (gridEnd (gridBounds (fun _ : Fin d => -1) (fun _ => 1))) (3 ^ d)
      (gridBegin (gridBounds (fun _ : Fin d => -1) (fun _ => 1))) = some V' := by
    obtain ⟨h0, h3⟩ := hd
    have : d = 1 ∨ d = 2 ∨ d = 3 := by omega
    rcases this with rfl | rfl | rfl <;> exact Option.isSome_iff_exists.1 (by decide +kernel)
  obtain ⟨V', hV'⟩ := hfin
  have hmono : ∀ b stop fuel cur L, gridVisit b stop fuel cur = some L → ∀ k, gridVisit b stop (fuel + k) cur = some L := by
    intro b stop fuel
    induction fuel with
    | zero =>
      intro cur L h k
      unfold gridVisit at h ⊢
      split at h
      · rename_i he; rw [if_pos he]; exact h
      · exact absurd h (by simp)
    | succ f ih =>
      intro cur L h k
      have e : f + 1 + k = (f + k) + 1 := by omega
      rw [e]
      unfold gridVisit at h ⊢
      split at h
      · rename_i he; rw [if_pos he]; exact h
      · rename_i he
        rw [if_neg he]
        simp only [Option.map_eq_some_iff] at h ⊢
        obtain ⟨L', a1, a2⟩ := h
        exact ⟨L', ih _ _ a1 k, a2⟩
  have hVV : V' = V := by
    have := hmono _ _ _ _ _ hV' N
    rw [hN (3 ^ d + N) (Nat.le_add_left _ _)] at this
    exact (Option.some.inj this).symm
  subst hVV
  -- convert to indices
  have hconv : ∃ M : List (Index d), V'.mapM indexOfList = some M ∧ V' = M.map fun o => List.ofFn o := by
    clear hV' hN h2 h3 h4
    induction V' with
    | nil => exact ⟨[], rfl, rfl⟩
    | cons t V ih =>
      obtain ⟨o, ho⟩ := h1 t (by simp)
      obtain ⟨M, hM, hM2⟩ := ih fun t ht => h1 t (by simp [ht])
      refine ⟨o :: M, ?_, by rw [hM2, ho]; rfl⟩
      rw [List.mapM_cons, ho, indexOfList_ofFn, hM]; rfl
  obtain ⟨M, hM, hVM⟩ := hconv
  have hM1 : ∀ o, o ∈ M ↔ ∀ i, -1 ≤ o i ∧ o i ≤ 1 := by
    intro o
    rw [← h2 o, hVM, List.mem_map_of_injective List.ofFn_injective]
  have hM2 : M.Nodup := by
    rw [hVM] at h3; exact List.Nodup.of_map _ h3
  have hgen : generateIndexOffsets d a = some (M.filter fun o => decide (a = .any) || isAdjacent o a) := by
    unfold generateIndexOffsets
    dsimp only
    rw [hV']
    show (V'.mapM indexOfList).bind _ = _
    rw [hM]; rfl
  refine ⟨_, hgen, fun o => ?_, hM2.filter _, ?_⟩
  · rw [List.mem_filter, hM1]
    have hbox : (∃ k, ContactDim o k) ↔ ∀ i, -1 ≤ o i ∧ o i ≤ 1 := by
      constructor
      · rintro ⟨k, hk⟩ i
        exact abs_le.1 (((contactDim_iff o k).1 hk).1 i)
      · intro h
        exact ⟨_, (contactDim_iff o _).2 ⟨fun i => abs_le.2 (h i), rfl⟩⟩
    have hsc : SharesContact o a → ∃ k, ContactDim o k := by
      cases a <;> simp only [SharesContact] <;> intro h <;> first | exact ⟨_, h⟩ | exact h.1 | exact h | exact h.elim
    simp only [Bool.or_eq_true, decide_eq_true_eq]
    constructor
    · rintro ⟨hb, rfl | h⟩
      · exact hbox.2 hb
      · exact (C48_is_adjacent hd.2 o a).1 h
    · intro h
      exact ⟨hbox.1 (hsc h), Or.inr ((C48_is_adjacent hd.2 o a).2 h)⟩
  · obtain ⟨h0, h3⟩ := hd
    have hlen : (generateIndexOffsets d a).map List.length = some (numNeighbors d a) := by
      have : d = 1 ∨ d = 2 ∨ d = 3 := by omega
      rcases this with rfl | rfl | rfl <;> cases a <;> decide +kernel
    rw [hgen] at hlen
    simpa using hlen

/-- **C48** Two octree nodes of any heights and positions are reported adjacent iff the closed boxes they cover touch or
overlap (boxes in units of the smallest cell). -/
theorem C48_nodes_adjacent (n1 n2 : NdtreeIndex d) (h1 : 0 ≤ n1.height) (h2 : 0 ≤ n2.height) :
    nodesAdjacent n1 n2 = true ↔
      ∀ i, n1.position i * 2 ^ n1.height.toNat ≤ (n2.position i + 1) * 2 ^ n2.height.toNat ∧
           n2.position i * 2 ^ n2.height.toNat ≤ (n1.position i + 1) * 2 ^ n1.height.toNat := by
  have key : ∀ (s b : Int) (hs hb : Nat), hs ≤ hb →
      ((b * 2 ^ (hb - hs) - 1 ≤ s ∧ s ≤ b * 2 ^ (hb - hs) + 2 ^ (hb - hs)) ↔
        (s * 2 ^ hs ≤ (b + 1) * 2 ^ hb ∧ b * 2 ^ hb ≤ (s + 1) * 2 ^ hs)) := by
    intro s b hs hb hle
    have e : (2 : Int) ^ hb = 2 ^ (hb - hs) * 2 ^ hs := by rw [← pow_add]; congr 1; omega
    have hpos : (0 : Int) < 2 ^ hs := by positivity
    rw [e]
    have a1 : s * 2 ^ hs ≤ (b + 1) * (2 ^ (hb - hs) * 2 ^ hs) ↔ s ≤ b * 2 ^ (hb - hs) + 2 ^ (hb - hs) := by
      have : (b + 1) * (2 ^ (hb - hs) * 2 ^ hs) = (b * 2 ^ (hb - hs) + 2 ^ (hb - hs)) * (2 ^ hs : Int) := by ring
      rw [this]; exact mul_le_mul_iff_left₀ hpos
    have a2 : b * (2 ^ (hb - hs) * 2 ^ hs) ≤ (s + 1) * 2 ^ hs ↔ b * 2 ^ (hb - hs) - 1 ≤ s := by
      have : b * (2 ^ (hb - hs) * 2 ^ hs) = (b * 2 ^ (hb - hs)) * (2 ^ hs : Int) := by ring
      rw [this, mul_le_mul_iff_left₀ hpos]; omega
    rw [a1, a2]
    exact and_comm
  unfold nodesAdjacent
  simp only [List.all_eq_true, List.mem_finRange, true_implies, Bool.and_eq_true, decide_eq_true_eq]
  refine forall_congr' fun i => ?_
  have hexp : ∀ k, ((exp2 k : Nat) : Int) = 2 ^ k := by intro k; simp [exp2, Nat.one_shiftLeft]
  unfold multExp2
  rw [hexp]
  by_cases hlt : n1.height < n2.height
  · rw [if_pos hlt, if_pos hlt]
    have e : (n1.height - n2.height).natAbs = n2.height.toNat - n1.height.toNat := by omega
    rw [e]
    exact key _ _ _ _ (by omega)
  · rw [if_neg hlt, if_neg hlt]
    have e : (n1.height - n2.height).natAbs = n1.height.toNat - n2.height.toNat := by omega
    rw [e, key _ _ _ _ (by omega)]
    exact and_comm

/-- Non-vacuity and a sample of the meaning: a cell at the corner shares a vertex, a cell two away does not touch, and a
height-2 node touches the small cell just outside of it. -/
example : SharesContact (![1, -1, 1] : Index 3) .sharedVertex ∧ ¬ SharesContact (![2, 0, 0] : Index 3) .any ∧
    nodesAdjacent (⟨2, ![0, 0]⟩ : NdtreeIndex 2) ⟨0, ![4, -1]⟩ = true ∧
    nodesAdjacent (⟨2, ![0, 0]⟩ : NdtreeIndex 2) ⟨0, ![5, -1]⟩ = false := by
  refine ⟨(C48_is_adjacent (by decide) _ _).1 (by decide +kernel), fun h => ?_, by decide +kernel, by decide +kernel⟩
  have := (C48_is_adjacent (by decide) _ _).2 h
  revert this; decide +kernel

end Wavemap
