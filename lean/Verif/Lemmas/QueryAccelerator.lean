import Verif.Lemmas.QueryMorton
/-! # Invariant of the accelerators of wavelet maps -/
namespace Wavemap
open NdtreeIndex Haar

theorem queryStackSize_eq : queryStackSize = 20 := by decide

theorem stackAt_lt {α : Type} (s : Nat → α) {i : Nat} (h : i < 20) : stackAt s i = some (s i) :=
  if_pos (by rw [queryStackSize_eq]; exact h)

theorem stackPut_lt {α : Type} (s : Nat → α) {i : Nat} (h : i < 20) (a : α) :
    stackPut s i a = some fun j => if j = i then a else s j :=
  if_pos (by rw [queryStackSize_eq]; exact h)

namespace WaveletNodes
variable {ν : Type} (w : WaveletNodes ν)

/-- The node at the end of a path. -/
def walkNode : Option ν → List (Fin (2 ^ 3)) → Option ν
  | x, [] => x
  | none, _ :: _ => none
  | some x, c :: p => walkNode (w.child x c) p

/-- The value decompressed along a path, which stops at a missing node. -/
def walkValue : Option ν → ℚ → List (Fin (2 ^ 3)) → ℚ
  | _, v, [] => v
  | none, v, _ :: _ => v
  | some x, v, c :: p => walkValue (w.child x c) (backwardSingleChild 3 ⟨v, w.data x⟩ c) p

@[simp] theorem walkNode_none (p) : w.walkNode none p = none := by cases p <;> rfl
@[simp] theorem walkValue_none (v p) : w.walkValue none v p = v := by cases p <;> rfl
@[simp] theorem walkNode_nil (x) : w.walkNode x [] = x := by cases x <;> rfl
@[simp] theorem walkValue_nil (x v) : w.walkValue x v [] = v := by cases x <;> rfl

theorem walkNode_append (x p q) : w.walkNode x (p ++ q) = w.walkNode (w.walkNode x p) q := by
  induction p generalizing x with
  | nil => rw [w.walkNode_nil]; rfl
  | cons c p ih => cases x with
    | none => simp
    | some x => exact ih _

theorem walkValue_append (x v p q) : w.walkValue x v (p ++ q) = w.walkValue (w.walkNode x p) (w.walkValue x v p) q := by
  induction p generalizing x v with
  | nil => rw [w.walkNode_nil, w.walkValue_nil]; rfl
  | cons c p ih => cases x with
    | none => simp
    | some x => exact ih _ _

/-- The answer of the map itself. -/
def value (n : NdtreeIndex 3) : ℚ :=
  match w.getBlock (w.blockIndex n) with
  | none => 0
  | some (root, s) => w.walkValue (some root) s (mortonPath 3 (nodeIndexToMorton n) w.treeHeight n.height.toNat)

/-- A query the accelerator is made for. -/
structure Query (n : NdtreeIndex 3) : Prop where
  nonneg : 0 ≤ n.height
  le : n.height ≤ w.treeHeight
  block : w.blockIndex n = blockOfNode w.treeHeight n
  ne : w.blockIndex n ≠ noBlockIndex

end WaveletNodes

namespace WaveletAccelerator
variable {ν : Type} (w : WaveletNodes ν)

/-- The stacks hold the nodes and values along the path of the Morton code, from the root down to height `h`. -/
structure Stacks (a : WaveletAccelerator ν) (root : ν) (s : ℚ) (h : Nat) : Prop where
  le : h ≤ w.treeHeight
  node : ∀ k, h ≤ k → k ≤ w.treeHeight → a.nodeStack k = w.walkNode (some root) (mortonPath 3 a.mortonCode w.treeHeight k)
  value : ∀ k, h ≤ k → k ≤ w.treeHeight → a.valueStack k = w.walkValue (some root) s (mortonPath 3 a.mortonCode w.treeHeight k)
  some : ∀ k, h < k → k ≤ w.treeHeight → a.nodeStack k ≠ none

theorem Stacks.withHeight {a : WaveletAccelerator ν} {root : ν} {s : ℚ} {h : Nat} (hs : Stacks w a root s h) (h' : Nat) :
    Stacks w { a with height := h' } root s h := ⟨hs.le, hs.node, hs.value, hs.some⟩

/-- The accelerator belongs to a map and its last query. -/
inductive Inv (a : WaveletAccelerator ν) : Prop where
  | fresh (hb : a.blockIndex = noBlockIndex)
  | missing (hb : w.getBlock a.blockIndex = none) (hn : a.nodeStack w.treeHeight = none) (hh : a.height = w.treeHeight)
  | loaded (n : NdtreeIndex 3) (root : ν) (s : ℚ) (hq : w.Query n) (hb : w.blockIndex n = a.blockIndex)
      (hm : a.mortonCode = nodeIndexToMorton n) (hg : w.getBlock a.blockIndex = some (root, s))
      (hs : Stacks w a root s a.height) (hh : n.height.toNat ≤ a.height)

theorem walk_spec (hH : w.treeHeight < 20) {root : ν} {s : ℚ} (target : Nat) : ∀ (h : Nat) (a : WaveletAccelerator ν),
    Stacks w a root s h → target ≤ h → ∃ a', walk w target h a = some a' ∧ Stacks w a' root s a'.height ∧ target ≤ a'.height ∧
      a'.blockIndex = a.blockIndex ∧ a'.mortonCode = a.mortonCode ∧
      a'.valueStack a'.height = w.walkValue (some root) s (mortonPath 3 a.mortonCode w.treeHeight target) := by
  intro h
  induction h with
  | zero =>
    intro a hs ht
    obtain rfl : target = 0 := by omega
    refine ⟨{ a with height := 0 }, ?_, hs.withHeight w 0, Nat.le_refl _, rfl, rfl, hs.value 0 (Nat.le_refl _) hs.le⟩
    rw [walk, stackAt_lt _ (by omega)]
    cases a.nodeStack 0 <;> simp
  | succ h ih =>
    intro a hs ht
    have hle := hs.le
    rw [walk, stackAt_lt _ (by omega)]
    cases hnode : a.nodeStack (h + 1) with
    | none =>
      refine ⟨{ a with height := h + 1 }, rfl, hs.withHeight w _, ht, rfl, rfl, ?_⟩
      dsimp only
      rw [hs.value _ (Nat.le_refl _) hle]
      have hw := hs.node _ (Nat.le_refl _) hle
      rw [hnode] at hw
      -- the longer path continues at a missing node
      have : ∃ q, mortonPath 3 a.mortonCode w.treeHeight target = mortonPath 3 a.mortonCode w.treeHeight (h + 1) ++ q := by
        clear ih hnode hw
        obtain ⟨e, he⟩ : ∃ e, h + 1 = target + e := ⟨h + 1 - target, by omega⟩
        rw [he] at hle ⊢
        clear he hs ht
        induction e with
        | zero => exact ⟨[], by simp⟩
        | succ e ih2 =>
          obtain ⟨q, hq⟩ := ih2 (by omega)
          refine ⟨mortonChild a.mortonCode (target + e + 1) :: q, ?_⟩
          rw [hq, mortonPath_step _ (show target + e < w.treeHeight by omega)]
          simp [Nat.add_assoc]
      obtain ⟨q, hq⟩ := this
      rw [hq, w.walkValue_append, ← hw, w.walkValue_none]
    | some parent =>
      by_cases he : h + 1 = target
      · subst he
        refine ⟨{ a with height := h + 1 }, by simp, hs.withHeight w _, Nat.le_refl _, rfl, rfl, hs.value _ (Nat.le_refl _) hle⟩
      · dsimp only
        rw [if_neg he, stackAt_lt _ (by omega)]
        dsimp only
        rw [stackPut_lt _ (by omega), stackPut_lt _ (by omega)]
        dsimp only
        have hnode' := hs.node _ (Nat.le_refl _) hle
        rw [hnode] at hnode'
        have hval' := hs.value _ (Nat.le_refl _) hle
        have hstep := mortonPath_step a.mortonCode (show h < w.treeHeight by omega)
        refine ih _ ⟨by omega, ?_, ?_, ?_⟩ (by omega)
        · intro k hk1 hk2
          dsimp only
          by_cases hk : k = h
          · subst hk
            rw [if_pos rfl, hstep, w.walkNode_append, ← hnode']
            simp [WaveletNodes.walkNode]
          · rw [if_neg hk]; exact hs.node k (by omega) hk2
        · intro k hk1 hk2
          dsimp only
          by_cases hk : k = h
          · subst hk
            rw [if_pos rfl, hstep, w.walkValue_append, ← hnode', ← hval']
            simp [WaveletNodes.walkValue]
          · rw [if_neg hk]; exact hs.value k (by omega) hk2
        · intro k hk1 hk2
          dsimp only
          rw [if_neg (by omega)]
          by_cases hk : k = h + 1
          · subst hk; rw [hnode]; simp
          · exact hs.some k (by omega) hk2

theorem finish_spec (hH : w.treeHeight < 20) {root : ν} {s : ℚ} (target previousHeight : Nat) (a : WaveletAccelerator ν)
    (hs : Stacks w a root s a.height) (ht : target ≤ a.height) :
    ∃ v a', finish w target previousHeight a = some (v, a') ∧ Stacks w a' root s a'.height ∧ target ≤ a'.height ∧
      a'.blockIndex = a.blockIndex ∧ a'.mortonCode = a.mortonCode ∧
      v = w.walkValue (some root) s (mortonPath 3 a.mortonCode w.treeHeight target) := by
  have hle := hs.le
  unfold finish
  split
  · next he =>
    refine ⟨_, a, by rw [stackAt_lt _ (by omega)]; rfl, hs, ht, rfl, rfl, ?_⟩
    rw [hs.value _ (Nat.le_refl _) hle, he]
  · next he =>
    have hload : ∃ a₁ : WaveletAccelerator ν, load w previousHeight a = some a₁ ∧ Stacks w a₁ root s a₁.height ∧ a₁.height = a.height ∧
          a₁.blockIndex = a.blockIndex ∧ a₁.mortonCode = a.mortonCode := by
      unfold load
      by_cases hc : previousHeight ≠ w.treeHeight ∧ a.height = previousHeight
      · rw [if_pos hc, stackAt_lt _ (by omega)]
        have hlt : a.height < w.treeHeight := by omega
        cases hp : a.nodeStack (a.height + 1) with
        | none => exact absurd hp (hs.some _ (by omega) (by omega))
        | some parent =>
          dsimp only
          rw [stackPut_lt _ (by omega)]
          refine ⟨_, rfl, ⟨hle, ?_, hs.value, ?_⟩, rfl, rfl, rfl⟩
          · intro k hk1 hk2
            dsimp only
            by_cases hk : k = a.height
            · subst hk
              have hnode' := hs.node _ (Nat.le_succ _) (show a.height + 1 ≤ w.treeHeight by omega)
              rw [if_pos rfl, mortonPath_step _ hlt, w.walkNode_append, ← hnode']
              rw [show a.nodeStack (a.height + 1) = some parent from hp]
              simp [WaveletNodes.walkNode]
            · rw [if_neg hk]; exact hs.node k hk1 hk2
          · intro k hk1 hk2
            dsimp only at hk1 ⊢
            rw [if_neg (by omega)]; exact hs.some k hk1 hk2
      · rw [if_neg hc]; exact ⟨a, rfl, hs, rfl, rfl, rfl⟩
    obtain ⟨a₁, e1, hs1, hh1, hb1, hm1⟩ := hload
    rw [e1]
    dsimp only
    obtain ⟨a₂, e2, hs2, ht2, hb2, hm2, hv2⟩ := walk_spec w hH target a₁.height a₁ hs1 (by omega)
    rw [e2]
    dsimp only
    rw [stackAt_lt _ (by have := hs2.le; omega)]
    refine ⟨_, a₂, rfl, hs2, ht2, by rw [hb2, hb1], by rw [hm2, hm1], ?_⟩
    rw [hv2, hm1]

/-- Every query gives the map's answer. -/
theorem getCellValue_spec (hH : w.treeHeight < 20) (a : WaveletAccelerator ν) (ha : Inv w a) (n : NdtreeIndex 3) (hq : w.Query n) :
    ∃ a', getCellValue w a n = some (w.value n, a') ∧ Inv w a' := by
  have hqn := hq.le
  have hq0 := hq.nonneg
  unfold getCellValue
  dsimp only
  by_cases hb : w.blockIndex n = a.blockIndex
  · rw [if_pos hb, stackAt_lt _ (by omega)]
    cases ha with
    | fresh hf => exact absurd (hb.trans hf) hq.ne
    | missing hg hn hh =>
      rw [hn]
      refine ⟨_, ?_, .missing (a := { a with blockIndex := w.blockIndex n, mortonCode := nodeIndexToMorton n })
        (by dsimp only; rw [hb]; exact hg) hn hh⟩
      unfold WaveletNodes.value
      rw [hb, hg]
    | loaded n' root s hq' hb' hm hg hs hh =>
      have hroot : a.nodeStack w.treeHeight = some root := by
        rw [hs.node _ hs.le (Nat.le_refl _), mortonPath_of_le _ (Nat.le_refl _)]; rfl
      rw [hroot]
      dsimp only
      have hq'0 := hq'.nonneg
      have hq'n := hq'.le
      have hmlt : a.mortonCode < 2 ^ 64 := by rw [hm]; exact morton_lt n'
      obtain ⟨l1, l2, l3⟩ := lca_spec (h := n.height.toNat) (h' := a.height) (morton_lt n) hmlt
      have hsame : nodeIndexToMorton n / 2 ^ (w.treeHeight * 3) = a.mortonCode / 2 ^ (w.treeHeight * 3) := by
        rw [hm]
        exact morton_sameBlock n n' hqn hq'n (by rw [← hq.block, ← hq'.block, hb, hb'])
      have l4 := lca_le (h := n.height.toNat) (h' := a.height) (morton_lt n) hmlt (by omega) hs.le hsame
      generalize lastCommonAncestorHeight 3 (nodeIndexToMorton n) n.height.toNat a.mortonCode a.height = L at l1 l2 l3 l4
      have hst : Stacks w { a with blockIndex := w.blockIndex n, mortonCode := nodeIndexToMorton n, height := L } root s L := by
        refine ⟨l4, ?_, ?_, ?_⟩
        · intro k hk1 hk2
          dsimp only
          rw [l3 _ k hk1]; exact hs.node k (by omega) hk2
        · intro k hk1 hk2
          dsimp only
          rw [l3 _ k hk1]; exact hs.value k (by omega) hk2
        · intro k hk1 hk2
          exact hs.some k (by omega) hk2
      obtain ⟨v, a', e, hs', ht', hb'', hm'', hv⟩ := finish_spec w hH n.height.toNat a.height _ hst l1
      refine ⟨a', ?_, .loaded n root s hq hb''.symm hm'' ?_ hs' ht'⟩
      · rw [e, hv]
        unfold WaveletNodes.value
        rw [hb, hg]
      · rw [hb'']; dsimp only; rw [hb]; exact hg
  · rw [if_neg hb]
    cases hg : w.getBlock (w.blockIndex n) with
    | none =>
      dsimp only
      rw [stackPut_lt _ hH, stackPut_lt _ hH]
      refine ⟨⟨fun j => if j = w.treeHeight then none else a.nodeStack j, fun j => if j = w.treeHeight then 0 else a.valueStack j,
        w.blockIndex n, nodeIndexToMorton n, w.treeHeight⟩, ?_, .missing hg (if_pos rfl) rfl⟩
      unfold WaveletNodes.value
      rw [hg]
    | some x =>
      obtain ⟨root, s⟩ := x
      dsimp only
      rw [stackPut_lt _ hH, stackPut_lt _ hH]
      dsimp only
      have hst : Stacks w { a with nodeStack := (fun j => if j = w.treeHeight then some root else a.nodeStack j),
                                   valueStack := (fun j => if j = w.treeHeight then s else a.valueStack j),
                                   blockIndex := w.blockIndex n, mortonCode := nodeIndexToMorton n,
                                   height := w.treeHeight } root s w.treeHeight := by
        refine ⟨Nat.le_refl _, ?_, ?_, ?_⟩
        · intro k hk1 hk2
          dsimp only
          rw [if_pos (by omega), mortonPath_of_le _ (by omega)]; rfl
        · intro k hk1 hk2
          dsimp only
          rw [if_pos (by omega), mortonPath_of_le _ (by omega)]; rfl
        · intro k hk1 hk2; omega
      obtain ⟨v, a', e, hs', ht', hb'', hm'', hv⟩ := finish_spec w hH n.height.toNat a.height _ hst (by dsimp only; omega)
      refine ⟨a', ?_, .loaded n root s hq hb''.symm hm'' ?_ hs' ht'⟩
      · rw [e, hv]
        unfold WaveletNodes.value
        rw [hg]
      · rw [hb'']; exact hg

end WaveletAccelerator
end Wavemap
