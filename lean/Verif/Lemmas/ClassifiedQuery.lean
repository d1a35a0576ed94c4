import Verif.Lemmas.ClassifiedMap
import Verif.Props.QueryAccelerator
/-! # Queries on classified maps -/
namespace Wavemap
open NdtreeIndex Haar NdtreeBlockHash

namespace QueryCache
open CTree

/-- The node at height `k` on the way to the cell with the Morton code. -/
def onPath (H : Nat) (b : Index 3) (code k : Nat) : NdtreeIndex 3 := below ⟨H, b⟩ (mortonPath 3 code H k)

theorem onPath_top (H : Nat) (b : Index 3) (code : Nat) : onPath H b code H = ⟨H, b⟩ := by
  unfold onPath; rw [mortonPath_of_le _ (Nat.le_refl _)]; rfl

theorem onPath_step {H : Nat} (b : Index 3) (code : Nat) {h : Nat} (hh : h < H) :
    onPath H b code h = (onPath H b code (h + 1)).computeChildIndex (mortonChild code (h + 1)).val := by
  unfold onPath; rw [mortonPath_step code hh]; simp [below]

theorem onPath_height {H : Nat} (b : Index 3) (code : Nat) {k : Nat} (hk : k ≤ H) : (onPath H b code k).height = k := by
  unfold onPath
  rw [(below_block H b _).1, indexOfPath_height, mortonPath_length _ hk]; omega

theorem onPath_node {m : ClassBlocks} (hH : m.maxHeight ≤ 20) {n : NdtreeIndex 3} (hn : NodeInHash m.maxHeight n) :
    onPath m.maxHeight (m.indexToBlockIndex n) (nodeIndexToMorton n) n.height.toNat = n := by
  unfold onPath
  rw [← NdtreeAccelerator.nodePath_indexToCell m hH n hn]
  exact below_cell (by decide) m (by omega) hH hn

theorem onPath_region {H : Nat} (b : Index 3) (code : Nat) {k k' : Nat} (hk : k ≤ k') (hk' : k' ≤ H) (j : Index 3)
    (hj : NodeRegion (onPath H b code k) j) : NodeRegion (onPath H b code k') j := by
  obtain ⟨e, rfl⟩ : ∃ e, k' = k + e := ⟨k' - k, by omega⟩
  clear hk
  induction e with
  | zero => exact hj
  | succ e ih =>
    have h1 := ih (by omega)
    rw [onPath_step b code (show k + e < H by omega)] at h1
    refine child_region ?_ h1
    rw [onPath_height b code (by omega)]; omega

theorem occurs_mono {C : Index 3 → OccClass} {n n' : NdtreeIndex 3} (h : ∀ j, NodeRegion n j → NodeRegion n' j) {k : OccClass}
    (hk : Occurs C n k) : Occurs C n' k := by
  obtain ⟨j, hj, e⟩ := hk; exact ⟨j, h j hj, e⟩

/-- The stack holds, from the root down to height `h`, nodes that describe the regions on the way to the cell. -/
structure QStack (C : Index 3 → OccClass) (ex : Bool) (H : Nat) (q : QueryCache) (h : Nat) : Prop where
  le : h ≤ H
  node : ∀ k, h ≤ k → k ≤ H → ∃ t, q.nodeStack k = some t ∧ Good C ex k t (onPath H q.blockIndex q.mortonCode k)

theorem QStack.withHeight {C : Index 3 → OccClass} {ex : Bool} {H : Nat} {q : QueryCache} {h : Nat} (hs : QStack C ex H q h) (h' : Nat) :
    QStack C ex H { q with height := h' } h := ⟨hs.le, hs.node⟩

theorem QStack.pos {C : Index 3 → OccClass} {ex : Bool} {H : Nat} {q : QueryCache} {h : Nat} (hs : QStack C ex H q h) : 0 < h := by
  obtain ⟨t, -, hg⟩ := hs.node h (Nat.le_refl _) hs.le
  exact hg.pos

theorem QStack.push {C : Index 3 → OccClass} {ex : Bool} {H : Nat} {q : QueryCache} {h : Nat} (hs : QStack C ex H q (h + 1)) {t : CTree}
    (hg : Good C ex h t (onPath H q.blockIndex q.mortonCode h)) :
    QStack C ex H { q with nodeStack := fun j => if j = h then some t else q.nodeStack j } h := by
  have := hs.le
  refine ⟨by omega, fun k hk1 hk2 => ?_⟩
  dsimp only
  by_cases hk : k = h
  · subst hk; rw [if_pos rfl]; exact ⟨t, rfl, hg⟩
  · rw [if_neg hk]; exact hs.node k (by omega) hk2

/-- The cache belongs to the blocks and its last query. -/
inductive QInv (C : Index 3 → OccClass) (ex : Bool) (m : ClassBlocks) (q : QueryCache) : Prop where
  | missing (hb : q.blockIndex = noBlockIndex ∨ m.blocks.getBlock q.blockIndex = none) (hl : q.block = false) (hh : q.height = m.maxHeight)
  | loaded (n : NdtreeIndex 3) (hn : NodeInHash m.maxHeight n) (hb : m.indexToBlockIndex n = q.blockIndex)
      (hx : ∃ x, m.blocks.getBlock q.blockIndex = some x) (hm : q.mortonCode = nodeIndexToMorton n) (hl : q.block = true)
      (hs : QStack C ex m.maxHeight q q.height)
  | entered (hx : ∃ x, m.blocks.getBlock q.blockIndex = some x) (hl : q.block = true) (hh : q.height = m.maxHeight)
      (hs : QStack C ex m.maxHeight q q.height)

/-- All blocks describe their regions. -/
def GoodBlocks (C : Index 3 → OccClass) (ex : Bool) (m : ClassBlocks) : Prop :=
  ∀ b x, m.blocks.getBlock b = some x → Good C ex m.maxHeight x.root ⟨m.maxHeight, b⟩

theorem fresh_qinv (C : Index 3 → OccClass) (ex : Bool) (m : ClassBlocks) : QInv C ex m (fresh m.maxHeight) := .missing (Or.inl rfl) rfl rfl

/-- What the common beginning of the queries achieves. -/
theorem start_spec {C : Index 3 → OccClass} {ex : Bool} {m : ClassBlocks} (hm : GoodBlocks C ex m) (hH : m.maxHeight < 20) {q : QueryCache}
    (hq : QInv C ex m q) {n : NdtreeIndex 3} (hn : NodeInHash m.maxHeight n) (hne : m.indexToBlockIndex n ≠ noBlockIndex) :
    ∃ q', start m q n = some q' ∧ q'.mortonCode = nodeIndexToMorton n ∧ q'.blockIndex = m.indexToBlockIndex n ∧
      ((q'.block = false ∧ m.blocks.getBlock (m.indexToBlockIndex n) = none ∧ QInv C ex m q') ∨
       (q'.block = true ∧ (∃ x, m.blocks.getBlock (m.indexToBlockIndex n) = some x) ∧ QStack C ex m.maxHeight q' q'.height ∧
        n.height.toNat ≤ q'.height)) := by
  have hn0 := hn.1; have hn1 := hn.2
  unfold start
  dsimp only
  unfold getBlock
  by_cases hb : m.indexToBlockIndex n = q.blockIndex
  · rw [if_neg (by simpa using hb)]
    dsimp only
    cases hq with
    | missing hg hl hh =>
      rw [if_neg (by simp [hl])]
      have hg' : m.blocks.getBlock q.blockIndex = none := by
        rcases hg with h | h
        · exact absurd (hb.trans h) hne
        · exact h
      exact ⟨_, rfl, rfl, hb.symm, Or.inl ⟨hl, by rw [hb]; exact hg', .missing (Or.inr hg') hl hh⟩⟩
    | loaded n' hn' hb' hx hm' hl hs =>
      by_cases hh : q.height = m.maxHeight
      · rw [if_neg (by simp [hh])]
        refine ⟨_, rfl, rfl, hb.symm, Or.inr ⟨hl, by rw [hb]; exact hx, ⟨by dsimp only; omega, fun k hk1 hk2 => ?_⟩, by dsimp only; omega⟩⟩
        dsimp only at hk1 ⊢
        obtain rfl : k = m.maxHeight := by omega
        obtain ⟨t, h1, h2⟩ := hs.node m.maxHeight (by omega) (Nat.le_refl _)
        rw [onPath_top] at h2 ⊢
        exact ⟨t, h1, h2⟩
      · rw [if_pos ⟨hl, hh⟩]
        have hmlt : q.mortonCode < 2 ^ 64 := by rw [hm']; exact morton_lt n'
        obtain ⟨l1, l2, l3⟩ := lca_spec (h := n.height.toNat) (h' := q.height) (morton_lt n) hmlt
        have hsame : nodeIndexToMorton n / 2 ^ (m.maxHeight * 3) = q.mortonCode / 2 ^ (m.maxHeight * 3) := by
          rw [hm']
          exact morton_sameBlock n n' hn.2 hn'.2 (by
            rw [← NdtreeAccelerator.blk_eq_blockOfNode m n hn, ← NdtreeAccelerator.blk_eq_blockOfNode m n' hn', hb', hb])
        have l4 := lca_le (h := n.height.toNat) (h' := q.height) (morton_lt n) hmlt (by omega) hs.le hsame
        refine ⟨_, rfl, rfl, hb.symm, Or.inr ⟨hl, by rw [hb]; exact hx, ⟨l4, fun k hk1 hk2 => ?_⟩, l1⟩⟩
        dsimp only at hk1 ⊢
        have := hs.node k (by omega) hk2
        unfold onPath at this ⊢
        rw [l3 _ k hk1]; exact this
    | entered hx hl hh hs =>
      rw [if_neg (by simp [hh])]
      refine ⟨_, rfl, rfl, hb.symm, Or.inr ⟨hl, by rw [hb]; exact hx, ⟨by dsimp only; omega, fun k hk1 hk2 => ?_⟩, by dsimp only; omega⟩⟩
      dsimp only at hk1 ⊢
      obtain rfl : k = m.maxHeight := by omega
      obtain ⟨t, h1, h2⟩ := hs.node m.maxHeight (by omega) (Nat.le_refl _)
      rw [onPath_top] at h2 ⊢
      exact ⟨t, h1, h2⟩
  · rw [if_pos (by simpa using hb)]
    cases hg : m.blocks.getBlock (m.indexToBlockIndex n) with
    | none =>
      dsimp only
      rw [if_neg (by simp)]
      exact ⟨_, rfl, rfl, rfl, Or.inl ⟨rfl, rfl, .missing (Or.inr hg) rfl rfl⟩⟩
    | some x =>
      dsimp only
      rw [stackPut_lt _ hH]
      simp only [Option.map_some]
      rw [if_neg (by simp)]
      refine ⟨_, rfl, rfl, rfl, Or.inr ⟨rfl, ⟨x, rfl⟩, ⟨Nat.le_refl _, fun k hk1 hk2 => ?_⟩, by dsimp only; omega⟩⟩
      dsimp only at hk1 ⊢
      obtain rfl : k = m.maxHeight := by omega
      rw [if_pos rfl, onPath_top]
      exact ⟨x.root, rfl, hm _ _ hg⟩

theorem getBlock_spec {C : Index 3 → OccClass} {ex : Bool} {m : ClassBlocks} (hm : GoodBlocks C ex m) (hH : m.maxHeight < 20) {q : QueryCache}
    (hq : QInv C ex m q) {b : Index 3} (hne : b ≠ noBlockIndex) :
    ∃ q', getBlock m q b = some q' ∧ QInv C ex m q' ∧ (q'.block = true ↔ ∃ x, m.blocks.getBlock b = some x) := by
  unfold getBlock
  by_cases hb : b = q.blockIndex
  · rw [if_neg (by simpa using hb)]
    refine ⟨q, rfl, hq, ?_⟩
    cases hq with
    | missing hg hl hh =>
      rcases hg with h | h
      · exact absurd (hb.trans h) hne
      · rw [hb, h, hl]; simp
    | loaded n' hn' hb' hx hm' hl hs => rw [hb]; exact ⟨fun _ => hx, fun _ => hl⟩
    | entered hx hl hh hs => rw [hb]; exact ⟨fun _ => hx, fun _ => hl⟩
  · rw [if_pos (by simpa using hb)]
    cases hg : m.blocks.getBlock b with
    | none => exact ⟨_, rfl, .missing (Or.inr hg) rfl rfl, by simp⟩
    | some x =>
      dsimp only
      rw [stackPut_lt _ hH]
      simp only [Option.map_some]
      refine ⟨_, rfl, .entered ⟨x, hg⟩ rfl rfl ⟨Nat.le_refl _, fun k hk1 hk2 => ?_⟩, ⟨fun _ => ⟨x, rfl⟩, fun _ => rfl⟩⟩
      dsimp only at hk1 ⊢
      obtain rfl : k = m.maxHeight := by omega
      rw [if_pos rfl, onPath_top]
      exact ⟨x.root, rfl, hm _ _ hg⟩

/-- The right answer of `has` (`final = true`) or `isFully` (`final = false`). -/
def Answer (C : Index 3 → OccClass) (final : Bool) (n : NdtreeIndex 3) (mask : BitVec 8) : Prop :=
  if final then ∃ k, Occurs C n k ∧ InMask mask k else ∀ k, Occurs C n k → InMask mask k

theorem occurs_some (C : Index 3 → OccClass) (n : NdtreeIndex 3) : ∃ k, Occurs C n k := by
  obtain ⟨j, hj⟩ := region_nonempty n
  exact ⟨_, j, hj, rfl⟩

theorem regionWalk_spec {C : Index 3 → OccClass} {ex : Bool} {H : Nat} (hH : H < 20) (mask : BitVec 8) (final : Bool) (target : Nat) :
    ∀ (h : Nat) (q : QueryCache), QStack C ex H q h → target < h →
    ∃ r q', regionWalk mask final target h q = some (r, q') ∧ QStack C ex H q' q'.height ∧ q'.blockIndex = q.blockIndex ∧
      q'.mortonCode = q.mortonCode ∧ q'.block = q.block ∧ (r = true ↔ Answer C final (onPath H q.blockIndex q.mortonCode target) mask) := by
  intro h
  induction h with
  | zero => intro q _ ht; omega
  | succ h ih =>
    intro q hs ht
    have hle := hs.le
    obtain ⟨x, hx, hg⟩ := hs.node (h + 1) (Nat.le_refl _) hle
    rw [regionWalk, stackAt_lt _ (by omega), hx]
    dsimp only
    have hstep := onPath_step q.blockIndex q.mortonCode (show h < H by omega)
    obtain ⟨hb, hgc, -⟩ := hg.2 (mortonChild q.mortonCode (h + 1))
    rw [← hstep] at hb hgc
    have hmask : ∀ k, InMask ((classData x).childOccupancyMask (mortonChild q.mortonCode (h + 1))) k ↔
        Occurs C (onPath H q.blockIndex q.mortonCode h) k := fun k => (inMask_child _ _ k).trans (hb k)
    have hsub : ∀ k, Occurs C (onPath H q.blockIndex q.mortonCode target) k → Occurs C (onPath H q.blockIndex q.mortonCode h) k :=
      fun k hk => occurs_mono (fun j hj => onPath_region _ _ (by omega) (by omega) j hj) hk
    obtain ⟨k₀, hk₀⟩ := occurs_some C (onPath H q.blockIndex q.mortonCode target)
    have hfull : OccClassifier.isFully ((classData x).childOccupancyMask (mortonChild q.mortonCode (h + 1))) mask = true ↔
        ∀ k, Occurs C (onPath H q.blockIndex q.mortonCode h) k → InMask mask k := by
      unfold ClassData.childOccupancyMask at hmask ⊢
      rw [isFully_iff]
      exact forall_congr' fun k => by rw [hmask]
    have hhas : OccClassifier.has ((classData x).childOccupancyMask (mortonChild q.mortonCode (h + 1))) mask = true ↔
        ∃ k, Occurs C (onPath H q.blockIndex q.mortonCode h) k ∧ InMask mask k := by
      unfold ClassData.childOccupancyMask at hmask ⊢
      rw [has_iff]
      exact exists_congr fun k => by rw [hmask]
    by_cases h1 : OccClassifier.isFully ((classData x).childOccupancyMask (mortonChild q.mortonCode (h + 1))) mask = true
    · rw [if_pos h1]
      refine ⟨true, { q with height := h + 1 }, rfl, hs.withHeight _, rfl, rfl, rfl, ?_⟩
      have h1' := hfull.1 h1
      unfold Answer
      cases final
      · simp only [Bool.false_eq_true, if_false, true_iff]
        exact fun k hk => h1' k (hsub k hk)
      · simp only [if_true, true_iff]
        exact ⟨k₀, hk₀, h1' _ (hsub _ hk₀)⟩
    · rw [if_neg h1]
      by_cases h2 : OccClassifier.has ((classData x).childOccupancyMask (mortonChild q.mortonCode (h + 1))) mask = true
      · rw [if_neg (by simp [h2])]
        have h1' : ¬ ∀ k, Occurs C (onPath H q.blockIndex q.mortonCode h) k → InMask mask k := fun h => h1 (hfull.2 h)
        obtain ⟨k₁, hk₁, hk₁'⟩ := hhas.1 h2
        have hnu : ¬ Uniform C (onPath H q.blockIndex q.mortonCode h) := by
          rw [uniform_iff]
          rintro ⟨k, hk⟩
          apply h1'
          intro k' hk'
          rw [(hk k').1 hk', ← (hk k₁).1 hk₁]; exact hk₁'
        have hgood := hgc hnu
        have hcn : ¬ (NTree.child x (mortonChild q.mortonCode (h + 1))).isNil = true := by
          rw [NTree.isNil_iff]; exact hgood.ne_nil
        by_cases h3 : h = target
        · rw [if_pos (Or.inl h3)]
          refine ⟨final, { q with height := h + 1 }, rfl, hs.withHeight _, rfl, rfl, rfl, ?_⟩
          rw [← h3]
          unfold Answer
          cases final
          · simp only [Bool.false_eq_true, if_false, false_iff]; exact h1'
          · simp only [if_true, true_iff]; exact ⟨k₁, hk₁, hk₁'⟩
        · rw [if_neg (by rintro (h | h); exacts [h3 h, hcn h]), stackPut_lt _ (by omega)]
          have := ih _ (hs.push hgood) (by omega)
          exact this
      · rw [if_pos (by simpa using h2)]
        have h2' : ¬ ∃ k, Occurs C (onPath H q.blockIndex q.mortonCode h) k ∧ InMask mask k := fun h => h2 (hhas.2 h)
        refine ⟨false, { q with height := h + 1 }, rfl, hs.withHeight _, rfl, rfl, rfl, ?_⟩
        unfold Answer
        cases final
        · simp only [Bool.false_eq_true, if_false, false_iff]
          exact fun h => h2' ⟨k₀, hsub _ hk₀, h _ hk₀⟩
        · simp only [if_true, Bool.false_eq_true, false_iff]
          rintro ⟨k, hk, hk'⟩
          exact h2' ⟨k, hsub _ hk, hk'⟩

/-- `has` and `isFully` are right about the region of the node. -/
theorem region_spec {C : Index 3 → OccClass} {ex : Bool} {m : ClassBlocks} (hm : GoodBlocks C ex m) (hH : m.maxHeight < 20) {q : QueryCache}
    (hq : QInv C ex m q) {n : NdtreeIndex 3} (hn : NodeInHash m.maxHeight n) (hne : m.indexToBlockIndex n ≠ noBlockIndex)
    (atNode : BitVec 8 → BitVec 8 → Bool) (final : Bool) (hat : atNode = if final then OccClassifier.has else OccClassifier.isFully) (mask : BitVec 8) :
    ∃ r q', region atNode final m q n mask = some (r, q') ∧ QInv C ex m q' ∧
      (r = true ↔ (∃ x, m.blocks.getBlock (m.indexToBlockIndex n) = some x) ∧ Answer C final n mask) := by
  obtain ⟨q', e, hmc, hbi, hcase⟩ := start_spec hm hH hq hn hne
  have hnode := onPath_node (m := m) (by omega) hn
  unfold region
  rw [e]
  dsimp only
  rcases hcase with ⟨hl, hg, hq'⟩ | ⟨hl, hx, hs, hle⟩
  · rw [if_neg (by simp [hl])]
    refine ⟨false, q', rfl, hq', ?_⟩
    simp [hg]
  · rw [if_pos hl]
    have hsle := hs.le
    by_cases hh : q'.height = n.height.toNat
    · rw [if_pos hh]
      obtain ⟨t, ht, hg⟩ := hs.node q'.height (Nat.le_refl _) hs.le
      rw [stackAt_lt _ (by omega), ht]
      dsimp only
      refine ⟨_, q', rfl, .loaded n hn hbi.symm (by rw [hbi]; exact hx) hmc hl hs, ?_⟩
      rw [hbi, hmc, hh, hnode] at hg
      have hmask : ∀ k, InMask (classData t).occupancyMask k ↔ Occurs C n k := fun k =>
        (inMask_node _ k).trans (hg.anyBit (by have := hn.1; omega) k)
      rw [hat]
      unfold ClassData.occupancyMask at hmask ⊢
      unfold Answer
      cases final
      · simp only [Bool.false_eq_true, if_false]
        rw [isFully_iff]
        simp only [hmask]
        exact ⟨fun h => ⟨hx, h⟩, fun h => h.2⟩
      · simp only [if_true]
        rw [has_iff]
        simp only [hmask]
        exact ⟨fun h => ⟨hx, h⟩, fun h => h.2⟩
    · rw [if_neg hh]
      obtain ⟨r, q'', e2, hs', hb', hm', hl', hr⟩ := regionWalk_spec hH mask final n.height.toNat q'.height q' hs (by omega)
      refine ⟨r, q'', e2, .loaded n hn (by rw [hb', hbi]) (by rw [hb', hbi]; exact hx) (by rw [hm', hmc]) (by rw [hl', hl]) hs', ?_⟩
      rw [hr, hbi, hmc, hnode]
      exact ⟨fun h => ⟨hx, h⟩, fun h => h.2⟩

theorem walk_spec {C : Index 3 → OccClass} {H : Nat} (hH : H < 20) (target : Nat) :
    ∀ (h : Nat) (q : QueryCache), QStack C true H q h → target ≤ h →
    ∃ t k q', walk target h q = some (t, k, q') ∧ q'.height = k ∧ QStack C true H q' k ∧ q'.blockIndex = q.blockIndex ∧
      q'.mortonCode = q.mortonCode ∧ q'.block = q.block ∧ target ≤ k ∧ k ≤ H ∧ Good C true k t (onPath H q.blockIndex q.mortonCode k) ∧
      (target < k → Uniform C (onPath H q.blockIndex q.mortonCode (k - 1))) := by
  intro h
  induction h with
  | zero => intro q hs; exact absurd hs.pos (by omega)
  | succ h ih =>
    intro q hs ht
    have hle := hs.le
    obtain ⟨x, hx, hg⟩ := hs.node (h + 1) (Nat.le_refl _) hle
    rw [walk, stackAt_lt _ (by omega), hx]
    dsimp only
    have hstep := onPath_step q.blockIndex q.mortonCode (show h < H by omega)
    obtain ⟨-, hgc, hex⟩ := hg.2 (mortonChild q.mortonCode (h + 1))
    rw [← hstep] at hgc hex
    by_cases htl : target < h + 1
    · rw [if_pos htl]
      by_cases hc : (NTree.child x (mortonChild q.mortonCode (h + 1))).isNil = true
      · rw [if_pos hc]
        refine ⟨x, h + 1, _, rfl, rfl, hs.withHeight _, rfl, rfl, rfl, ht, hle, hg, fun _ => ?_⟩
        by_contra hu
        exact (hgc hu).ne_nil (NTree.isNil_iff.1 hc)
      · rw [if_neg hc, stackPut_lt _ (by omega)]
        have hu : ¬ Uniform C (onPath H q.blockIndex q.mortonCode h) := fun hu => hc (NTree.isNil_iff.2 (hex rfl hu))
        have := ih _ (hs.push (hgc hu)) (by omega)
        exact this
    · rw [if_neg htl]
      exact ⟨x, h + 1, _, rfl, rfl, hs.withHeight _, rfl, rfl, rfl, ht, hle, hg, fun h => absurd h htl⟩

/-- `getNodeOrAncestor` finds the smallest classified region around the node. -/
theorem getNodeOrAncestor_spec {C : Index 3 → OccClass} {m : ClassBlocks} (hm : GoodBlocks C true m) (hH : m.maxHeight < 20) {q : QueryCache}
    (hq : QInv C true m q) {n : NdtreeIndex 3} (hn : NodeInHash m.maxHeight n) (hne : m.indexToBlockIndex n ≠ noBlockIndex) :
    ∃ t k q', getNodeOrAncestor m q n = some ((t, k), q') ∧ QInv C true m q' ∧
      ((m.blocks.getBlock (m.indexToBlockIndex n) = none ∧ t = .nil ∧ k = m.maxHeight) ∨
       ((∃ x, m.blocks.getBlock (m.indexToBlockIndex n) = some x) ∧ n.height.toNat ≤ k ∧ k ≤ m.maxHeight ∧
        Good C true k t (onPath m.maxHeight (m.indexToBlockIndex n) (nodeIndexToMorton n) k) ∧
        (n.height.toNat < k → Uniform C (onPath m.maxHeight (m.indexToBlockIndex n) (nodeIndexToMorton n) (k - 1))))) := by
  obtain ⟨q', e, hmc, hbi, hcase⟩ := start_spec hm hH hq hn hne
  unfold getNodeOrAncestor
  rw [e]
  dsimp only
  rcases hcase with ⟨hl, hg, hq'⟩ | ⟨hl, hx, hs, hle⟩
  · rw [if_neg (by simp [hl])]
    exact ⟨.nil, m.maxHeight, q', rfl, hq', Or.inl ⟨hg, rfl, rfl⟩⟩
  · rw [if_pos hl]
    obtain ⟨t, k, q'', e2, hk, hs', hb', hm', hl', h1, h2, h3, h4⟩ := walk_spec hH n.height.toNat q'.height q' hs hle
    rw [e2]
    refine ⟨t, k, q'', rfl, .loaded n hn (by rw [hb', hbi]) (by rw [hb', hbi]; exact hx) (by rw [hm', hmc]) (by rw [hl', hl]) (by rw [hk]; exact hs'),
      Or.inr ⟨hx, h1, h2, ?_, fun h => ?_⟩⟩
    · rw [hbi, hmc] at h3; exact h3
    · have := h4 h; rw [hbi, hmc] at this; exact this

end QueryCache

/-! ### Updates -/

namespace ClassifiedMap

theorem getBlock_updateBlock (c : ClassBlocks) (k k' : Index 3) (f : CTree → CTree) :
    (updateBlock c k f).blocks.getBlock k' =
      if k' = k then some { ((c.blocks.getBlock k).getD (.create c.maxHeight c.defaultValue)) with
        root := f ((c.blocks.getBlock k).getD (.create c.maxHeight c.defaultValue)).root }
      else c.blocks.getBlock k' := by
  unfold updateBlock getOrAllocateBlock
  dsimp only
  rw [SpatialHash.getBlock_modify, SpatialHash.getBlock_getOrAllocate, SpatialHash.getBlock_getOrAllocate, if_pos rfl]
  by_cases hk : k' = k
  · rw [if_pos hk, if_pos hk]; rfl
  · rw [if_neg hk, if_neg hk, if_neg hk]

/-- Basic invariant of the blocks. -/
structure Base (c : ClassBlocks) (H : Nat) : Prop where
  height : c.maxHeight = H
  dflt : c.defaultValue = {}
  nodup : c.blocks.keys.Nodup
  block : ∀ k b, c.blocks.getBlock k = some b → b.maxHeight = H ∧ b.root ≠ .nil

theorem Base.updateBlock {c : ClassBlocks} {H : Nat} (h : Base c H) (k : Index 3) (f : CTree → CTree) (hf : ∀ t, t ≠ .nil → f t ≠ .nil) :
    Base (updateBlock c k f) H := by
  refine ⟨h.height, h.dflt, ?_, ?_⟩
  · unfold ClassifiedMap.updateBlock getOrAllocateBlock
    dsimp only
    rw [SpatialHash.keys_modify]
    exact SpatialHash.keys_getOrAllocate _ _ _ h.nodup
  · intro k' b hb
    rw [getBlock_updateBlock] at hb
    split at hb
    · cases hg : c.blocks.getBlock k with
      | none =>
        rw [hg] at hb
        simp only [Option.getD_none, Option.some.injEq] at hb
        rw [← hb]
        exact ⟨h.height, hf _ (by simp [Ndtree.create])⟩
      | some x =>
        rw [hg] at hb
        simp only [Option.getD_some, Option.some.injEq] at hb
        rw [← hb]
        exact ⟨(h.block _ _ hg).1, hf _ (h.block _ _ hg).2⟩
    · exact h.block _ _ hb

/-- The root on which a block's classification starts. -/
def oldRoot (c : ClassBlocks) (k : Index 3) : CTree :=
  match c.blocks.getBlock k with
  | none => .leaf {}
  | some b => b.root

theorem oldRoot_ne_nil {c : ClassBlocks} {H : Nat} (h : Base c H) (k : Index 3) : oldRoot c k ≠ .nil := by
  unfold oldRoot
  split
  · simp
  · next hb => exact (h.block _ _ hb).2

theorem fold_update {β : Type} {H : Nat} (f : Index 3 × β → CTree → CTree) (hf : ∀ e t, t ≠ .nil → f e t ≠ .nil) :
    ∀ (l : List (Index 3 × β)) (c : ClassBlocks), (l.map Prod.fst).Nodup → Base c H →
    Base (l.foldl (fun c e => updateBlock c e.1 (f e)) c) H ∧ ∀ k,
      (∀ e ∈ l, e.1 = k → ∃ b, (l.foldl (fun c e => updateBlock c e.1 (f e)) c).blocks.getBlock k = some b ∧ b.root = f e (oldRoot c k)) ∧
      (k ∉ l.map Prod.fst → (l.foldl (fun c e => updateBlock c e.1 (f e)) c).blocks.getBlock k = c.blocks.getBlock k) := by
  intro l
  induction l with
  | nil => intro c _ h; exact ⟨h, fun k => ⟨fun e he => (List.not_mem_nil he).elim, fun _ => rfl⟩⟩
  | cons x l ih =>
    intro c hnd h
    rw [List.map_cons, List.nodup_cons] at hnd
    obtain ⟨h1, h2⟩ := ih (updateBlock c x.1 (f x)) hnd.2 (h.updateBlock _ _ (hf x))
    refine ⟨h1, fun k => ⟨fun e he hk => ?_, fun hk => ?_⟩⟩
    · rcases List.mem_cons.1 he with rfl | he
      · subst hk
        rw [List.foldl_cons, (h2 e.1).2 hnd.1, getBlock_updateBlock, if_pos rfl]
        refine ⟨_, rfl, ?_⟩
        dsimp only
        unfold oldRoot
        cases hg : c.blocks.getBlock e.1 with
        | none => simp only [Option.getD_none, Ndtree.create, h.dflt]
        | some b => simp only [Option.getD_some]
      · have hkx : k ≠ x.1 := by
          rintro rfl
          exact hnd.1 (hk ▸ List.mem_map_of_mem (f := Prod.fst) he)
        obtain ⟨b, hb, hr⟩ := (h2 k).1 e he hk
        refine ⟨b, hb, ?_⟩
        rw [hr]
        unfold oldRoot
        rw [getBlock_updateBlock, if_neg hkx]
    · rw [List.map_cons, List.mem_cons, not_or] at hk
      rw [List.foldl_cons, (h2 k).2 hk.2, getBlock_updateBlock, if_neg hk.1]

theorem Base.eraseMissing {c : ClassBlocks} {H : Nat} (h : Base c H) (m : HashedWaveletOctree) : Base (eraseMissing c m) H ∧
    ∀ k, (ClassifiedMap.eraseMissing c m).blocks.getBlock k = if m.blocks.hasBlock k then c.blocks.getBlock k else none := by
  have hg : ∀ k, (ClassifiedMap.eraseMissing c m).blocks.getBlock k = if m.blocks.hasBlock k then c.blocks.getBlock k else none := by
    intro k
    unfold ClassifiedMap.eraseMissing
    dsimp only
    rw [SpatialHash.getBlock_eraseBlockIf _ h.nodup]
    cases c.blocks.getBlock k with
    | none => simp
    | some b => cases m.blocks.hasBlock k <;> simp
  have hnd := SpatialHash.keys_eraseBlockIf c.blocks (fun k x => (x, !m.blocks.hasBlock k)) h.nodup
  refine ⟨⟨h.height, h.dflt, hnd, fun k b hb => ?_⟩, hg⟩
  rw [hg] at hb
  split at hb
  · exact h.block _ _ hb
  · cases hb

/-- Both updates: erase, then classify every block. -/
theorem update_blocks {H : Nat} {c : ClassBlocks} (h : Base c H) {m : HashedWaveletOctree} (hnd : m.blocks.keys.Nodup)
    (f : Index 3 × WaveletBlock → CTree → CTree) (hf : ∀ e t, t ≠ .nil → f e t ≠ .nil) :
    Base (m.blocks.foldl (fun c e => updateBlock c e.1 (f e)) (ClassifiedMap.eraseMissing c m)) H ∧ ∀ k,
      match m.blocks.getBlock k with
      | none => (m.blocks.foldl (fun c e => updateBlock c e.1 (f e)) (ClassifiedMap.eraseMissing c m)).blocks.getBlock k = none
      | some x => ∃ b r, (m.blocks.foldl (fun c e => updateBlock c e.1 (f e)) (ClassifiedMap.eraseMissing c m)).blocks.getBlock k = some b ∧
          b.root = f (k, x) r ∧ r ≠ .nil ∧ (c.blocks = [] → r = .leaf {}) := by
  obtain ⟨he, hg⟩ := h.eraseMissing m
  obtain ⟨h1, h2⟩ := fold_update f hf m.blocks _ hnd he
  refine ⟨h1, fun k => ?_⟩
  cases hk : m.blocks.getBlock k with
  | none =>
    dsimp only
    rw [(h2 k).2 (SpatialHash.getBlock_eq_none.1 hk), hg]
    unfold SpatialHash.hasBlock
    rw [hk]; rfl
  | some x =>
    obtain ⟨b, hb, hr⟩ := (h2 k).1 (k, x) (SpatialHash.mem_of_getBlock hk) rfl
    refine ⟨b, _, hb, hr, oldRoot_ne_nil he k, fun hc => ?_⟩
    unfold oldRoot
    rw [hg, hc]
    cases m.blocks.hasBlock k <;> rfl

end ClassifiedMap
end Wavemap
