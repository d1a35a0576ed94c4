import Mathlib.Data.Fin.VecNotation
import Mathlib.Data.List.Nodup
import Verif.Props.VolumetricOctree
import Verif.Props.OctreeIntegrators
import Verif.Lemmas.CoarseToFine
/-!
# C65: the coarse-to-fine integrator

The nodes around a cell `j` are `indexAndHeightToNodeIndex j k`.
-/
namespace Wavemap
open NTree NdtreeIndex

/-! ## Specification -/

/-- What happens to a volumetric octree. -/
inductive CoarseOp where
  /-- add to all cells of a node (a cell is a node of height 0) -/
  | add (n : NdtreeIndex 3) (u : ℚ)
  | integrate (scan : Scan)
  | prune
  | clear

/-- The operation on the modelled map. -/
def CoarseOp.run (m : VolumetricOctree) : CoarseOp → Option VolumetricOctree
  | .add n u => some (m.addToNodeValue n u)
  | .integrate scan => m.updateMap scan
  | .prune => some m.prune
  | .clear => some m.clear

/-- Writes address nodes of the map. -/
def CoarseOp.InMap (H : Nat) : CoarseOp → Prop
  | .add n _ => NodeInMap H n
  | _ => True

/-- Whether the operation is `prune`. -/
def CoarseOp.isPrune : CoarseOp → Bool
  | .prune => true
  | _ => false

/-- The measurement has to be evaluated at a finer resolution than the node of height `k` around cell `j`. -/
def Scan.TooCoarse (scan : Scan) (j : Index 3) (k : Nat) : Prop :=
  let n := indexAndHeightToNodeIndex j k
  0 < k ∧ scan.updateType n ≠ .fullyUnobserved ∧ scan.coarseEnough (scan.updateType n) n = false

instance (scan : Scan) (j : Index 3) (k : Nat) : Decidable (scan.TooCoarse j k) := by unfold Scan.TooCoarse; infer_instance

/-- The height of the largest node around cell `j`, up to height `k`, that is not too coarse. -/
def Scan.stopHeight (scan : Scan) (j : Index 3) : Nat → Nat
  | 0 => 0
  | k + 1 => if scan.TooCoarse j (k + 1) then scan.stopHeight j k else k + 1

/-- The update of cell `j`: the sample of the node of height `s` around it, unless that node is not observed or the sample is almost zero. -/
def Scan.change (scan : Scan) (j : Index 3) (s : Nat) : ℚ :=
  let n := indexAndHeightToNodeIndex j s
  if 0 < s ∧ scan.updateType n = .fullyUnobserved then 0 else if |scan.sample n| ≤ kEpsilon then 0 else scan.sample n

/-- The operation on a plain table of log-odds for a map with tree height `H`. -/
def CoarseOp.spec (H : Nat) (lo hi : ℚ) (f : Index 3 → ℚ) : CoarseOp → Index 3 → ℚ
  | .add n u => fun j => if NodeRegion n j then f j + u else f j
  | .integrate scan => fun j => f j + scan.change j (scan.stopHeight j (H - 1))
  | .prune => fun j => clamp lo hi (f j)
  | .clear => fun _ => 0

/-- Visiting the leaves reports the value `v` for cell `j`, exactly once. -/
def VolumetricOctree.LeafValue (m : VolumetricOctree) (j : Index 3) (v : ℚ) : Prop :=
  ∃ n : NdtreeIndex 3, NodeRegion n j ∧ m.forEachLeaf.filter (fun e => decide (NodeRegion e.1 j)) = [(n, v)]

/-! ## The search -/

theorem Scan.stopHeight_le (scan : Scan) (j : Index 3) (k : Nat) : scan.stopHeight j k ≤ k := by
  induction k with
  | zero => exact le_refl _
  | succ k ih => unfold stopHeight; split <;> omega

theorem Scan.stopHeight_spec (scan : Scan) (j : Index 3) (k : Nat) :
    ¬ scan.TooCoarse j (scan.stopHeight j k) ∧ ∀ s, scan.stopHeight j k < s → s ≤ k → scan.TooCoarse j s := by
  induction k with
  | zero => exact ⟨fun h => absurd h.1 (lt_irrefl _), fun s h1 h2 => by omega⟩
  | succ k ih =>
    unfold stopHeight
    split
    · next h =>
      refine ⟨ih.1, fun s h1 h2 => ?_⟩
      rcases Nat.lt_or_ge s (k + 1) with h3 | h3
      · exact ih.2 s h1 (by omega)
      · obtain rfl : s = k + 1 := by omega
        exact h
    · next h => exact ⟨h, fun s h1 h2 => by omega⟩

/-- What a node of height `h` on the stack contributes to cell `j`. -/
def Scan.delta (scan : Scan) (j : Index 3) (h : Nat) : ℚ := scan.change j (scan.stopHeight j h)

theorem coarseAction_refine {scan : Scan} {j : Index 3} {k : Nat} :
    coarseAction scan (indexAndHeightToNodeIndex j k) = .refine ↔ scan.TooCoarse j k := by
  have hh : (indexAndHeightToNodeIndex j k).height = k := rfl
  unfold coarseAction Scan.TooCoarse sampleAction
  rw [hh]
  by_cases h0 : k = 0
  · subst h0
    simp only [Nat.cast_zero, if_true]
    split <;> simp
  · rw [if_neg (by omega)]
    by_cases h1 : scan.updateType (indexAndHeightToNodeIndex j k) = .fullyUnobserved
    · rw [if_pos h1]; simp [h1]
    · rw [if_neg h1]
      by_cases h2 : scan.coarseEnough (scan.updateType (indexAndHeightToNodeIndex j k)) (indexAndHeightToNodeIndex j k) = true
      · rw [if_pos (Or.inr h2)]
        split <;> simp [h2]
      · rw [if_neg (by rintro (h | h); exacts [h0 (by omega), h2 h])]
        simp only [Bool.not_eq_true] at h2
        simp [h2, h1]
        omega

theorem delta_stop {scan : Scan} {j : Index 3} {k : Nat} (h : ¬ scan.TooCoarse j k) : scan.delta j k = scan.change j k := by
  unfold Scan.delta
  cases k with
  | zero => rfl
  | succ k => rw [Scan.stopHeight, if_neg h]

theorem delta_refine {scan : Scan} {j : Index 3} {k : Nat} (h : scan.TooCoarse j (k + 1)) : scan.delta j (k + 1) = scan.delta j k := by
  unfold Scan.delta
  rw [Scan.stopHeight, if_pos h]

theorem coarseAction_change {scan : Scan} {j : Index 3} {k : Nat} :
    (coarseAction scan (indexAndHeightToNodeIndex j k) = .add → scan.change j k = scan.sample (indexAndHeightToNodeIndex j k)) ∧
    (coarseAction scan (indexAndHeightToNodeIndex j k) = .skip → scan.change j k = 0) := by
  have hh : (indexAndHeightToNodeIndex j k).height = k := rfl
  unfold coarseAction sampleAction Scan.change
  rw [hh]
  have hs : ∀ x : ℚ, (if kEpsilon < |x| then CoarseAction.add else CoarseAction.skip) = .add ↔ ¬ |x| ≤ kEpsilon := by
    intro x; split <;> simp_all
  have hs' : ∀ x : ℚ, (if kEpsilon < |x| then CoarseAction.add else CoarseAction.skip) = .skip ↔ |x| ≤ kEpsilon := by
    intro x; split <;> simp_all
  by_cases h0 : k = 0
  · subst h0
    rw [if_pos (by rfl), hs, hs']
    simp only [lt_irrefl, false_and, if_false]
    exact ⟨fun h => if_neg h, fun h => if_pos h⟩
  · rw [if_neg (by omega)]
    by_cases h1 : scan.updateType (indexAndHeightToNodeIndex j k) = .fullyUnobserved
    · rw [if_pos h1]
      simp only [h1, and_true]
      rw [if_pos (by omega)]
      simp
    · rw [if_neg h1]
      by_cases h2 : ((k : Int) = 0 ∨ scan.coarseEnough (scan.updateType (indexAndHeightToNodeIndex j k)) (indexAndHeightToNodeIndex j k) = true)
      · rw [if_pos h2, hs, hs', if_neg (fun h => h1 h.2)]
        exact ⟨fun h => if_neg h, fun h => if_pos h⟩
      · rw [if_neg h2]; simp

theorem sum_range_unique (n : Nat) (g : Nat → ℚ) (k : Nat) (hk : k < n) (h : ∀ k' < n, k' ≠ k → g k' = 0) :
    ((List.range n).map g).sum = g k := by
  induction n with
  | zero => omega
  | succ n ih =>
    rw [List.range_succ, List.map_append, List.sum_append, List.map_singleton, List.sum_singleton]
    rcases Nat.lt_or_ge k n with hlt | hge
    · rw [ih hlt (fun k' h1 h2 => h k' (by omega) h2), h n (by omega) (by omega), add_zero]
    · obtain rfl : k = n := by omega
      have : ((List.range k).map g).sum = 0 := by
        apply List.sum_eq_zero
        intro x hx
        obtain ⟨k', h1, rfl⟩ := List.mem_map.1 hx
        rw [List.mem_range] at h1
        exact h k' (by omega) (by omega)
      rw [this, zero_add]

theorem sum_children (g : NdtreeIndex 3 → ℚ) (n : NdtreeIndex 3) (hn : 0 < n.height) (j : Index 3) (h : Nat) (hh : n.height = h + 1)
    (hg : ∀ n', g n' = if NodeRegion n' j then g (indexAndHeightToNodeIndex j h) else 0) :
    (n.computeChildIndices.map g).sum = if NodeRegion n j then g (indexAndHeightToNodeIndex j h) else 0 := by
  obtain ⟨h1, h2⟩ := C03_children_partition n hn j
  unfold computeChildIndices
  rw [List.map_map, exp2_eq]
  by_cases hr : NodeRegion n j
  · rw [if_pos hr]
    obtain ⟨k, hk, hrk⟩ := h1.1 hr
    rw [sum_range_unique _ _ k hk (fun k' hk' hne => by
      show g _ = 0
      rw [hg, if_neg (fun hr' => hne (h2 k' hk' k hk hr' hrk))])]
    show g _ = _
    rw [hg, if_pos hrk]
  · rw [if_neg hr]
    apply List.sum_eq_zero
    intro x hx
    obtain ⟨k, hk, rfl⟩ := List.mem_map.1 hx
    rw [List.mem_range] at hk
    show g _ = 0
    rw [hg, if_neg (fun hr' => hr (h1.2 ⟨k, hk, hr'⟩))]

namespace VolumetricOctree
variable {m : VolumetricOctree} {scan : Scan}

/-- What is true of all maps that are built with a valid height. -/
structure Summed (m : VolumetricOctree) : Prop extends m.Inv where
  depth : VTree.DepthLe m.config.treeHeight m.root

/-- The sum of the node values around a cell. -/
def sumValue (m : VolumetricOctree) (j : Index 3) : ℚ := m.root.total (WaveletOctree.cpath m.config.treeHeight j)

/-- A wavelet octree of the same height, to reuse the facts about its indices. -/
def shadow (m : VolumetricOctree) : WaveletOctree := ⟨⟨1, 0, 1, m.config.treeHeight⟩, 0, .nil⟩

theorem prefix_iff (h : m.Inv) {n : NdtreeIndex 3} (hn : NodeInMap m.config.treeHeight n) {j : Index 3} (hj : CellInMap m.config.treeHeight j) :
    nodePath m.config.treeHeight (m.toInternal n) <+: WaveletOctree.cpath m.config.treeHeight j ↔ NodeRegion n j := by
  have hr := WaveletOctree.shift_range h.pos hj
  have ht : NodeInTree m.config.treeHeight (m.toInternal n) := toInternal_inTree m.shadow n hn
  have h1 := region_iff_prefix h.le (m.toInternal n) ht (fun k => j k + 2 ^ (m.config.treeHeight - 1)) hr
  rw [nodePath_cell h.le hr] at h1
  have h2 : NodeRegion (m.toInternal n) (fun k => j k + 2 ^ (m.config.treeHeight - 1)) ↔
      NodeRegion n fun k => j k + 2 ^ (m.config.treeHeight - 1) - 2 ^ (m.config.treeHeight - 1) := region_shift m.shadow n hn _
  simp only [add_sub_cancel_right] at h2
  exact h1.trans h2

theorem Summed.add (h : m.Summed) {n : NdtreeIndex 3} (hn : NodeInMap m.config.treeHeight n) (u : ℚ) :
    (m.addToNodeValue n u).Summed ∧ ∀ j, CellInMap m.config.treeHeight j →
      (m.addToNodeValue n u).sumValue j = m.sumValue j + if NodeRegion n j then u else 0 := by
  have ht : NodeInTree m.config.treeHeight (m.toInternal n) := toInternal_inTree m.shadow n hn
  have hroot : (m.addToNodeValue n u).root = VTree.write (· + u) m.root (nodePath m.config.treeHeight (m.toInternal n)) := rfl
  refine ⟨⟨⟨h.pos, h.le, by rw [hroot]; exact VTree.write_ne_nil _ _ h.root _⟩, ?_⟩, fun j hj => ?_⟩
  · rw [hroot]
    refine h.depth.write h.root _ _ ?_
    rw [nodePath_length ht]; omega
  · unfold sumValue
    rw [hroot, VTree.total_write u m.root h.root]
    show VTree.total m.root (WaveletOctree.cpath m.config.treeHeight j) +
      (if nodePath m.config.treeHeight (m.toInternal n) <+: WaveletOctree.cpath m.config.treeHeight j then u else 0) = _
    simp only [prefix_iff h.toInv hn hj]

theorem nodeInMap_child {H : Nat} {n : NdtreeIndex 3} (hn : NodeInMap H n) (hpos : 0 < n.height) (c : Nat) : NodeInMap H (n.computeChildIndex c) := by
  obtain ⟨h0, h1, h2⟩ := hn
  refine ⟨by show 0 ≤ n.height - 1; omega, by show n.height - 1 < _; omega, fun k => ?_⟩
  have h3 := h2 k
  show _ ≤ n.position k * 2 + (((c >>> k.val) &&& 1 : Nat) : Int) ∧ _
  have hb : ((c >>> k.val) &&& 1) < 2 := by rw [Nat.and_one_is_mod]; exact Nat.mod_lt _ (by decide)
  generalize hbv : (c >>> k.val) &&& 1 = b at hb
  have e := two_pow_double (a := H - 1 - (n.computeChildIndex c).height.toNat) (b := H - 1 - n.height.toNat) (by
    show H - 1 - (n.height - 1).toNat = _; omega)
  show _ ∧ n.position k * 2 + (((c >>> k.val) &&& 1 : Nat) : Int) < _
  rw [e, hbv]
  omega

theorem coarseLoop_spec (scan : Scan) (fuel : Nat) : ∀ (m : VolumetricOctree) (stack : List (NdtreeIndex 3)), m.Summed →
    (∀ n ∈ stack, NodeInMap m.config.treeHeight n) → (stack.map fun n => coarseCost n.height.toNat).sum ≤ fuel →
    ∃ m', coarseLoop scan fuel m stack = some m' ∧ m'.Summed ∧ m'.config = m.config ∧ ∀ j, CellInMap m.config.treeHeight j →
      m'.sumValue j = m.sumValue j + (stack.map fun n => if NodeRegion n j then scan.delta j n.height.toNat else 0).sum := by
  induction fuel with
  | zero =>
    intro m stack hm hs hf
    cases stack with
    | nil => exact ⟨m, rfl, hm, rfl, fun j _ => by simp⟩
    | cons n stack =>
      exfalso
      rw [List.map_cons, List.sum_cons] at hf
      have : 0 < coarseCost n.height.toNat := by cases n.height.toNat <;> simp [coarseCost]
      omega
  | succ fuel ih =>
    intro m stack hm hs hf
    cases stack with
    | nil => exact ⟨m, rfl, hm, rfl, fun j _ => by simp⟩
    | cons n stack =>
      rw [List.map_cons, List.sum_cons] at hf
      have hcost : 0 < coarseCost n.height.toNat := by cases n.height.toNat <;> simp [coarseCost]
      have hn := hs n List.mem_cons_self
      have hs' : ∀ n' ∈ stack, NodeInMap m.config.treeHeight n' := fun n' h => hs n' (List.mem_cons_of_mem _ h)
      have hanc : ∀ j, NodeRegion n j → n = indexAndHeightToNodeIndex j n.height.toNat := fun j hr =>
        ((C03_region_iff_ancestor n hn.1 j).1 hr).symm
      rw [coarseLoop]
      cases hact : coarseAction scan n with
      | skip =>
        obtain ⟨m', h1, h2, h3, h4⟩ := ih m stack hm hs' (by omega)
        refine ⟨m', h1, h2, h3, fun j hj => ?_⟩
        rw [h4 j hj, List.map_cons, List.sum_cons]
        have : (if NodeRegion n j then scan.delta j n.height.toNat else 0) = 0 := by
          split
          · next hr =>
            have e := hanc j hr
            rw [e] at hact
            rw [delta_stop (fun h => by rw [coarseAction_refine.2 h] at hact; cases hact)]
            exact coarseAction_change.2 hact
          · rfl
        rw [this, zero_add]
      | add =>
        obtain ⟨ha1, ha2⟩ := hm.add hn (scan.sample n)
        obtain ⟨m', h1, h2, h3, h4⟩ := ih (m.addToNodeValue n (scan.sample n)) stack ha1 hs' (by omega)
        refine ⟨m', h1, h2, h3, fun j hj => ?_⟩
        rw [h4 j hj, ha2 j hj, List.map_cons, List.sum_cons]
        have : (if NodeRegion n j then scan.delta j n.height.toNat else 0) = if NodeRegion n j then scan.sample n else 0 := by
          split
          · next hr =>
            have e := hanc j hr
            rw [e] at hact
            rw [delta_stop (fun h => by rw [coarseAction_refine.2 h] at hact; cases hact), coarseAction_change.1 hact, ← e]
          · rfl
        rw [this, add_assoc]
      | refine =>
        have hpos : 0 < n.height := by
          have h0 := hn.1
          rcases lt_or_ge 0 n.height with h | h
          · exact h
          · have h0' : n.height = 0 := by omega
            unfold coarseAction sampleAction at hact
            rw [if_pos h0'] at hact
            split at hact <;> cases hact
        obtain ⟨h, hh⟩ : ∃ h : Nat, n.height = h + 1 := ⟨n.height.toNat - 1, by omega⟩
        have hht : n.height.toNat = h + 1 := by omega
        have hch : ∀ n' ∈ n.computeChildIndices, n'.height = h := by
          intro n' hn'
          obtain ⟨c, _, rfl⟩ := List.mem_map.1 hn'
          show n.height - 1 = _; omega
        obtain ⟨m', h1, h2, h3, h4⟩ := ih m (n.computeChildIndices.reverse ++ stack) hm (by
            intro n' hn'
            rcases List.mem_append.1 hn' with hn' | hn'
            · obtain ⟨c, _, rfl⟩ := List.mem_map.1 (List.mem_reverse.1 hn')
              exact nodeInMap_child hn hpos c
            · exact hs' n' hn') (by
            rw [List.map_append, List.sum_append, List.map_reverse, List.sum_reverse]
            have : (n.computeChildIndices.map fun n => coarseCost n.height.toNat) = List.replicate 8 (coarseCost h) := by
              rw [List.eq_replicate_iff]
              refine ⟨by rw [List.length_map]; exact (C02_child_indices n).2.1, fun x hx => ?_⟩
              obtain ⟨n', hn', rfl⟩ := List.mem_map.1 hx
              rw [hch n' hn', Int.toNat_natCast]
            rw [this, List.sum_replicate, smul_eq_mul]
            rw [hht, coarseCost] at hf
            omega)
        refine ⟨m', h1, h2, h3, fun j hj => ?_⟩
        rw [h4 j hj, List.map_append, List.sum_append, List.map_reverse, List.sum_reverse, List.map_cons, List.sum_cons]
        have hsum : (n.computeChildIndices.map fun n => if NodeRegion n j then scan.delta j n.height.toNat else 0).sum =
            if NodeRegion n j then scan.delta j n.height.toNat else 0 := by
          rw [List.map_congr_left (g := fun n => if NodeRegion n j then scan.delta j h else 0)
            (fun n' hn' => by rw [hch n' hn', Int.toNat_natCast])]
          rw [sum_children _ n hpos j h hh (fun n' => by simp only [C03_cover j h, if_true])]
          rw [if_pos (C03_cover j h)]
          split
          · next hr =>
            have e := hanc j hr
            rw [e] at hact
            rw [coarseAction_refine, hht] at hact
            rw [hht, delta_refine hact]
          · rfl
        rw [hsum]

theorem firstChild_inMap (m : VolumetricOctree) (hpos : 0 < m.config.treeHeight) (n : NdtreeIndex 3) (hn : n ∈ m.getFirstChildIndices) :
    NodeInMap m.config.treeHeight n ∧ n.height = ((m.config.treeHeight - 1 : Nat) : Int) := by
  unfold getFirstChildIndices at hn
  obtain ⟨n', hn', rfl⟩ := List.mem_map.1 hn
  obtain ⟨c, _, rfl⟩ := List.mem_map.1 hn'
  have hh : (m.toExternalNodeIndex (m.internalRoot.computeChildIndex c)).height = ((m.config.treeHeight - 1 : Nat) : Int) := by
    show (m.config.treeHeight : Int) - 1 = _; omega
  refine ⟨⟨by omega, by omega, fun k => ?_⟩, hh⟩
  rw [hh, Int.toNat_natCast, Nat.sub_self, pow_zero]
  have hp : (m.toExternalNodeIndex (m.internalRoot.computeChildIndex c)).position k =
      0 * 2 + (((c >>> k.val) &&& 1 : Nat) : Int) - divExp2Floor (m.rootIndexOffset k) ((m.config.treeHeight : Int) - 1).toNat := rfl
  have e1 : ((m.config.treeHeight : Int) - 1).toNat = m.config.treeHeight - 1 := by omega
  rw [hp, rootIndexOffset_eq' m hpos, e1, divExp2Floor_eq, Int.ediv_self (Int.ne_of_gt (two_pow_pos' _))]
  have hb : ((c >>> k.val) &&& 1) < 2 := by rw [Nat.and_one_is_mod]; exact Nat.mod_lt _ (by decide)
  omega

theorem Summed.updateMap (h : m.Summed) (scan : Scan) : ∃ m', m.updateMap scan = some m' ∧ m'.Summed ∧ m'.config = m.config ∧
    ∀ j, CellInMap m.config.treeHeight j → m'.sumValue j = m.sumValue j + scan.change j (scan.stopHeight j (m.config.treeHeight - 1)) := by
  have hlen : m.getFirstChildIndices.length = 8 := by
    unfold getFirstChildIndices
    rw [List.length_map]
    exact (C02_child_indices _).2.1
  obtain ⟨m', h1, h2, h3, h4⟩ := coarseLoop_spec scan (8 * coarseCost (m.config.treeHeight - 1)) m m.getFirstChildIndices.reverse h
    (fun n hn => (m.firstChild_inMap h.pos n (List.mem_reverse.1 hn)).1) (by
      rw [List.map_reverse, List.sum_reverse]
      have : (m.getFirstChildIndices.map fun n => coarseCost n.height.toNat) = List.replicate 8 (coarseCost (m.config.treeHeight - 1)) := by
        rw [List.eq_replicate_iff]
        refine ⟨by rw [List.length_map, hlen], fun x hx => ?_⟩
        obtain ⟨n', hn', rfl⟩ := List.mem_map.1 hx
        rw [(m.firstChild_inMap h.pos n' hn').2, Int.toNat_natCast]
      rw [this, List.sum_replicate, smul_eq_mul])
  refine ⟨m', h1, h2, h3, fun j hj => ?_⟩
  rw [h4 j hj, List.map_reverse, List.sum_reverse]
  congr 1
  have hsum : (m.getFirstChildIndices.map fun n => if NodeRegion n j then scan.delta j n.height.toNat else 0) =
      (List.range 8).map fun c => if NodeRegion (m.toExternalNodeIndex (m.internalRoot.computeChildIndex c)) j
        then scan.delta j (m.config.treeHeight - 1) else 0 := by
    unfold getFirstChildIndices computeChildIndices
    rw [List.map_map, List.map_map]
    apply List.map_congr_left
    intro c hc
    have := (m.firstChild_inMap h.pos (m.toExternalNodeIndex (m.internalRoot.computeChildIndex c)) (by
      unfold getFirstChildIndices computeChildIndices
      rw [List.map_map]
      exact List.mem_map.2 ⟨c, hc, rfl⟩)).2
    simp only [Function.comp]
    rw [this, Int.toNat_natCast]
  rw [hsum]
  have hext : ∀ c, NodeRegion (m.toExternalNodeIndex (m.internalRoot.computeChildIndex c)) j ↔
      NodeRegion (m.internalRoot.computeChildIndex c) fun k => j k + 2 ^ (m.config.treeHeight - 1) := fun c =>
    m.external_region' h.pos _ (by show (0 : Int) ≤ m.config.treeHeight - 1; have := h.pos; omega)
      (by show (m.config.treeHeight : Int) - 1 < _; omega) j
  have hroot : NodeRegion m.internalRoot (fun k => j k + 2 ^ (m.config.treeHeight - 1)) := by
    intro k
    have := WaveletOctree.shift_range h.pos hj k
    simpa [internalRoot] using this
  obtain ⟨p1, p2⟩ := C03_children_partition m.internalRoot (by show (0 : Int) < m.config.treeHeight; have := h.pos; omega)
    fun k => j k + 2 ^ (m.config.treeHeight - 1)
  obtain ⟨c, hc, hr⟩ := p1.1 hroot
  rw [sum_range_unique 8 _ c hc (fun c' hc' hne => by
    rw [if_neg (fun hr' => hne (p2 c' hc' c hc ((hext c').1 hr') hr))]), if_pos ((hext c).2 hr)]
  rfl

theorem Summed.prune (h : m.Summed) : m.prune.Summed ∧ m.prune.Regular := by
  have hc : VTree.Clean m.config.treeHeight m.prune.root := VTree.prune_clean h.depth 0
  have hi : m.prune.Inv := ⟨h.pos, h.le, VTree.prune_ne_nil _ _ h.root⟩
  exact ⟨⟨hi, hc.depth⟩, ⟨hi, hc⟩⟩

theorem Regular.sum (h : m.Regular) {j : Index 3} (hj : CellInMap m.config.treeHeight j) : m.sumValue j = m.getCellValue j := by
  rw [getCellValue_eq h.toInv hj]
  exact h.clean.total _ (cellPath_length _ _)

theorem Summed.prune_cell (h : m.Summed) (h0 : m.config.minLogOdds ≤ 0) (h1 : 0 ≤ m.config.maxLogOdds) {j : Index 3}
    (hj : CellInMap m.config.treeHeight j) :
    |m.prune.getCellValue j - clamp m.config.minLogOdds m.config.maxLogOdds (m.sumValue j)| ≤ kEpsilon * (m.config.treeHeight + 1) := by
  rw [getCellValue_eq (m := m.prune) h.prune.1.toInv hj]
  have := VTree.read_prune_total h0 h1 m.config.treeHeight m.root h.root h.depth 0 (WaveletOctree.cpath m.config.treeHeight j) (cellPath_length _ _)
  rw [zero_add] at this
  exact this

theorem Summed.leaves (h : m.Summed) (ha : m.root.hasChildrenArray = true) {j : Index 3} (hj : CellInMap m.config.treeHeight j) :
    m.LeafValue j (m.sumValue j) := by
  have hheight : ∀ (h : Nat) (t : VTree), VTree.DepthLe h t → ∀ (n : NdtreeIndex 3), n.height = h → ∀ s : ℚ,
      ∀ e ∈ t.leaves n s, 0 ≤ e.1.height ∧ e.1.height ≤ h ∧ (t.hasChildrenArray = true → e.1.height < h) := by
    intro h
    induction h with
    | zero =>
      intro t hd n hn s e he
      cases t with
      | nil => cases he
      | leaf a =>
        rw [VTree.leaves, List.mem_singleton] at he
        subst he
        exact ⟨by simp only; omega, by simp only; omega, by simp [hasChildrenArray]⟩
      | node a ch => simp [VTree.DepthLe, hasChildrenArray] at hd
    | succ h ih =>
      intro t hd n hn s e he
      cases t with
      | nil => cases he
      | leaf a =>
        rw [VTree.leaves, List.mem_singleton] at he
        subst he
        exact ⟨by simp only; omega, by simp only; omega, by simp [hasChildrenArray]⟩
      | node a ch =>
        rw [VTree.leaves, List.mem_append, List.mem_flatMap, List.mem_flatMap] at he
        have hch : ∀ c, (n.computeChildIndex c).height = h := by intro c; simp only [computeChildIndex, hn]; push_cast; omega
        rcases he with ⟨c, _, he⟩ | ⟨c, _, he⟩
        · split at he
          · simp only [List.mem_singleton] at he
            subst he
            simp only [hch]; push_cast; omega
          · cases he
        · split at he
          · cases he
          · have := ih (ch c) (hd c) _ (hch _) _ e he
            push_cast; omega
  unfold LeafValue VolumetricOctree.forEachLeaf
  rw [List.filter_map]
  have hcongr : (m.root.leaves m.internalRoot 0).filter
      ((fun e : NdtreeIndex 3 × ℚ => decide (NodeRegion e.1 j)) ∘ fun e => (m.toExternalNodeIndex e.1, e.2))
      = (m.root.leaves m.internalRoot 0).filter
        (fun e => decide (NodeRegion e.1 fun k => j k + 2 ^ (m.config.treeHeight - 1))) := by
    apply List.filter_congr
    intro e hmem
    have := hheight _ _ h.depth m.internalRoot rfl 0 e hmem
    simp only [Function.comp]
    rw [decide_eq_decide]
    exact m.external_region' h.pos e.1 this.1 (this.2.2 ha) j
  rw [hcongr]
  have key := VTree.leaves_filter_total m.config.treeHeight m.root h.root h.depth m.internalRoot rfl 0
    fun k => j k + 2 ^ (m.config.treeHeight - 1)
  have hroot : NodeRegion m.internalRoot (fun k => j k + 2 ^ (m.config.treeHeight - 1)) := by
    intro k
    have := WaveletOctree.shift_range h.pos hj k
    simpa [internalRoot] using this
  obtain ⟨n, h1, h2, h3, h4, h5⟩ := key.1 hroot
  refine ⟨m.toExternalNodeIndex n, (m.external_region' h.pos n h1 (h4 ha) j).2 h3, ?_⟩
  rw [h5, zero_add]
  rfl

/-- The map holds the table `f`, up to `E`. -/
structure Holds (m : VolumetricOctree) (f : Index 3 → ℚ) (E : ℚ) : Prop extends m.Summed where
  close : ∀ j, CellInMap m.config.treeHeight j → |m.sumValue j - f j| ≤ E

theorem Holds.run {f : Index 3 → ℚ} {E : ℚ} (h : m.Holds f E) (h0 : m.config.minLogOdds ≤ 0) (h1 : 0 ≤ m.config.maxLogOdds)
    (o : CoarseOp) (ho : o.InMap m.config.treeHeight) : ∃ m', o.run m = some m' ∧ m'.config = m.config ∧
      m'.Holds (o.spec m.config.treeHeight m.config.minLogOdds m.config.maxLogOdds f)
        (E + if o.isPrune then kEpsilon * (m.config.treeHeight + 1) else 0) := by
  have hE : 0 ≤ E := le_trans (abs_nonneg _) (h.close (fun _ => 0) fun k => by
    have := two_pow_pos' (m.config.treeHeight - 1); constructor <;> dsimp only <;> omega)
  cases o with
  | add n u =>
    obtain ⟨a1, a2⟩ := h.toSummed.add ho u
    refine ⟨_, rfl, rfl, a1, fun j hj => ?_⟩
    rw [a2 j hj]
    have := h.close j hj
    simp only [CoarseOp.spec, CoarseOp.isPrune, Bool.false_eq_true, if_false, add_zero]
    split
    · rwa [add_sub_add_right_eq_sub]
    · rwa [add_zero]
  | integrate scan =>
    obtain ⟨m', u1, u2, u3, u4⟩ := h.toSummed.updateMap scan
    refine ⟨m', u1, u3, u2, fun j hj => ?_⟩
    rw [u3] at hj
    rw [u4 j hj]
    have := h.close j hj
    simp only [CoarseOp.spec, CoarseOp.isPrune, Bool.false_eq_true, if_false, add_zero]
    rwa [add_sub_add_right_eq_sub]
  | prune =>
    obtain ⟨p1, p2⟩ := h.toSummed.prune
    refine ⟨_, rfl, rfl, p1, fun j hj => ?_⟩
    have hj' : CellInMap m.config.treeHeight j := hj
    rw [p2.sum hj]
    have a1 := h.toSummed.prune_cell h0 h1 hj'
    have a2 := VTree.clamp_lipschitz (le_trans h0 h1) (m.sumValue j) (f j)
    have a3 := h.close j hj'
    simp only [CoarseOp.spec, CoarseOp.isPrune, if_true]
    have a4 := abs_sub_le (m.prune.getCellValue j) (clamp m.config.minLogOdds m.config.maxLogOdds (m.sumValue j))
      (clamp m.config.minLogOdds m.config.maxLogOdds (f j))
    linarith
  | clear =>
    refine ⟨_, rfl, rfl, ⟨⟨h.pos, h.le, by simp [VolumetricOctree.clear]⟩, VTree.depth_leaf _ _⟩, fun j hj => ?_⟩
    have : m.clear.sumValue j = 0 := VTree.total_leaf 0 _
    rw [this]
    simp only [CoarseOp.spec, CoarseOp.isPrune, Bool.false_eq_true, if_false, add_zero, sub_zero, abs_zero]
    exact hE

theorem Holds.runs (ops : List CoarseOp) : ∀ (m : VolumetricOctree) (f : Index 3 → ℚ) (E : ℚ), m.Holds f E → m.config.minLogOdds ≤ 0 →
    0 ≤ m.config.maxLogOdds → (∀ o ∈ ops, o.InMap m.config.treeHeight) →
    ∃ m', ops.foldlM CoarseOp.run m = some m' ∧ m'.config = m.config ∧
      m'.Holds (ops.foldl (CoarseOp.spec m.config.treeHeight m.config.minLogOdds m.config.maxLogOdds) f)
        (E + ops.countP CoarseOp.isPrune * (kEpsilon * (m.config.treeHeight + 1))) := by
  induction ops with
  | nil => intro m f E h _ _ _; exact ⟨m, rfl, rfl, by simpa using h⟩
  | cons o ops ih =>
    intro m f E h h0 h1 ho
    obtain ⟨m1, r1, r2, r3⟩ := h.run h0 h1 o (ho o List.mem_cons_self)
    obtain ⟨m', q1, q2, q3⟩ := ih m1 _ _ r3 (by rw [r2]; exact h0) (by rw [r2]; exact h1)
      (fun o' ho' => by rw [r2]; exact ho o' (List.mem_cons_of_mem _ ho'))
    refine ⟨m', by rw [List.foldlM_cons, r1]; exact q1, q2.trans r2, ?_⟩
    rw [r2] at q3
    rw [List.foldl_cons, List.countP_cons]
    have : E + (if o.isPrune = true then kEpsilon * (m.config.treeHeight + 1) else 0) + ops.countP CoarseOp.isPrune * (kEpsilon * (m.config.treeHeight + 1)) =
        E + ((ops.countP CoarseOp.isPrune + if o.isPrune = true then 1 else 0 : Nat) : ℚ) * (kEpsilon * (m.config.treeHeight + 1)) := by
      split <;> push_cast <;> ring
    rw [← this]
    exact q3

theorem create_holds {config : VolumetricOctreeConfig} (hpos : 0 < config.treeHeight) (hH : config.treeHeight ≤ 20) :
    (create config).Holds (fun _ => 0) 0 :=
  ⟨⟨⟨hpos, hH, by simp [create]⟩, VTree.depth_leaf _ _⟩, fun j _ => by
    have : (create config).sumValue j = 0 := VTree.total_leaf 0 _
    rw [this]; simp⟩

end VolumetricOctree

/-! ## Theorems -/

/-- `Scan.stopHeight` is what its description says: the node of that height is not too coarse, all larger ones are. -/
theorem C65_stop_height (scan : Scan) (j : Index 3) (k : Nat) : scan.stopHeight j k ≤ k ∧ ¬ scan.TooCoarse j (scan.stopHeight j k) ∧
    ∀ s, scan.stopHeight j k < s → s ≤ k → scan.TooCoarse j s :=
  ⟨scan.stopHeight_le j k, scan.stopHeight_spec j k⟩

/-- Integration terminates, after any history of additions, measurements, pruning and clearing. -/
theorem C65_terminates (config : VolumetricOctreeConfig) (hpos : 0 < config.treeHeight) (hH : config.treeHeight ≤ 20)
    (h0 : config.minLogOdds ≤ 0) (h1 : 0 ≤ config.maxLogOdds) (ops : List CoarseOp) (hops : ∀ o ∈ ops, o.InMap config.treeHeight) :
    ∃ m, ops.foldlM CoarseOp.run (.create config) = some m := by
  obtain ⟨m, r1, _, _⟩ := VolumetricOctree.Holds.runs ops (.create config) _ 0 (VolumetricOctree.create_holds hpos hH) h0 h1 hops
  exact ⟨m, r1⟩

/-- After any history of additions, measurements, pruning and clearing, visiting the leaves of the map reports for every cell, exactly once, what a plain
table would hold, up to `kEpsilon` per level of the tree and pruning. (A map that consists of its root node only reports its one leaf at the wrong
place: `C23_volumetric_root_fails`.) -/
theorem C65_leaf_values_partial (config : VolumetricOctreeConfig) (hpos : 0 < config.treeHeight) (hH : config.treeHeight ≤ 20)
    (h0 : config.minLogOdds ≤ 0) (h1 : 0 ≤ config.maxLogOdds) (ops : List CoarseOp) (hops : ∀ o ∈ ops, o.InMap config.treeHeight)
    (m : VolumetricOctree) (hm : ops.foldlM CoarseOp.run (.create config) = some m) (ha : m.root.hasChildrenArray = true)
    (j : Index 3) (hj : CellInMap config.treeHeight j) : ∃ v, m.LeafValue j v ∧
      |v - ops.foldl (CoarseOp.spec config.treeHeight config.minLogOdds config.maxLogOdds) (fun _ => 0) j| ≤
        ops.countP CoarseOp.isPrune * (kEpsilon * (config.treeHeight + 1)) := by
  obtain ⟨m', r1, r2, r3⟩ := VolumetricOctree.Holds.runs ops (.create config) _ 0 (VolumetricOctree.create_holds hpos hH) h0 h1 hops
  rw [hm] at r1
  obtain rfl : m = m' := Option.some.inj r1
  have hj' : CellInMap m.config.treeHeight j := by rw [r2]; exact hj
  have := r3.close j hj'
  rw [zero_add] at this
  exact ⟨_, r3.toSummed.leaves ha hj', this⟩

/-- After such a history and a final pruning, reading any cell of the map returns what a plain table would hold, up to `kEpsilon` per level of the tree and
pruning. -/
theorem C65_cell_values_after_prune (config : VolumetricOctreeConfig) (hpos : 0 < config.treeHeight) (hH : config.treeHeight ≤ 20)
    (h0 : config.minLogOdds ≤ 0) (h1 : 0 ≤ config.maxLogOdds) (ops : List CoarseOp) (hops : ∀ o ∈ ops, o.InMap config.treeHeight)
    (m : VolumetricOctree) (hm : ops.foldlM CoarseOp.run (.create config) = some m) (j : Index 3) (hj : CellInMap config.treeHeight j) :
    |m.prune.getCellValue j - clamp config.minLogOdds config.maxLogOdds
        (ops.foldl (CoarseOp.spec config.treeHeight config.minLogOdds config.maxLogOdds) (fun _ => 0) j)| ≤
      (ops.countP CoarseOp.isPrune + 1) * (kEpsilon * (config.treeHeight + 1)) := by
  obtain ⟨m', r1, r2, r3⟩ := VolumetricOctree.Holds.runs ops (.create config) _ 0 (VolumetricOctree.create_holds hpos hH) h0 h1 hops
  rw [hm] at r1
  obtain rfl : m = m' := Option.some.inj r1
  have hj' : CellInMap m.config.treeHeight j := by rw [r2]; exact hj
  have a1 := r3.toSummed.prune_cell (by rw [r2]; exact h0) (by rw [r2]; exact h1) hj'
  have a2 := VTree.clamp_lipschitz (le_trans h0 h1) (m.sumValue j)
    (ops.foldl (CoarseOp.spec config.treeHeight config.minLogOdds config.maxLogOdds) (fun _ => 0) j)
  have a3 := r3.close j hj'
  have r2' : m.config = config := r2
  rw [r2'] at a1
  have a4 := abs_sub_le (m.prune.getCellValue j) (clamp config.minLogOdds config.maxLogOdds (m.sumValue j))
    (clamp config.minLogOdds config.maxLogOdds
      (ops.foldl (CoarseOp.spec config.treeHeight config.minLogOdds config.maxLogOdds) (fun _ => 0) j))
  have a5 : m.sumValue j - ops.foldl (CoarseOp.spec config.treeHeight config.minLogOdds config.maxLogOdds) (fun _ => 0) j =
    m.sumValue j - ops.foldl (CoarseOp.spec (VolumetricOctree.create config).config.treeHeight (VolumetricOctree.create config).config.minLogOdds
      (VolumetricOctree.create config).config.maxLogOdds) (fun _ => 0) j := rfl
  rw [← a5, zero_add] at a3
  have a6 : ((VolumetricOctree.create config).config.treeHeight : ℚ) = config.treeHeight := rfl
  rw [a6] at a3
  linarith

/-- Without pruning in between, the values reported for the leaves are exact. -/
theorem C65_leaf_values_exact (config : VolumetricOctreeConfig) (hpos : 0 < config.treeHeight) (hH : config.treeHeight ≤ 20)
    (h0 : config.minLogOdds ≤ 0) (h1 : 0 ≤ config.maxLogOdds) (ops : List CoarseOp) (hops : ∀ o ∈ ops, o.InMap config.treeHeight)
    (hp : ∀ o ∈ ops, o.isPrune = false)
    (m : VolumetricOctree) (hm : ops.foldlM CoarseOp.run (.create config) = some m) (ha : m.root.hasChildrenArray = true)
    (j : Index 3) (hj : CellInMap config.treeHeight j) :
    m.LeafValue j (ops.foldl (CoarseOp.spec config.treeHeight config.minLogOdds config.maxLogOdds) (fun _ => 0) j) := by
  obtain ⟨v, h2, h3⟩ := C65_leaf_values_partial config hpos hH h0 h1 ops hops m hm ha j hj
  have : ops.countP CoarseOp.isPrune = 0 := by
    rw [List.countP_eq_zero]
    intro o ho
    rw [hp o ho]; simp
  rw [this, Nat.cast_zero, zero_mul] at h3
  rw [← sub_eq_zero.1 (abs_eq_zero.1 (le_antisymm h3 (abs_nonneg _)))]
  exact h2

/-! ## Where it fails -/

/-- One measurement that is fine in one octant and coarse elsewhere. -/
def cornerScan : Scan where
  updateType n := if n.position 2 < -1 then .fullyUnobserved else .possiblyOccupied
  sample n := if n.height = 0 then 3 else -1
  coarseEnough _ n := decide (n.position ≠ fun _ => 0)
  origin _ := 0
  maxRange := 1
  maxUpdateResolution := 1

/-- Finding: between an integration and the next pruning, reading a cell ignores the updates of the coarser nodes around it once a finer node exists.
First all octants get -1 in one node each; a second measurement adds 3 to the single cells of one octant. The table and the leaves then hold 2 there,
reading the cell returns 3. After pruning it returns 2. -/
theorem C65_cell_values_fails :
    let ops := [CoarseOp.integrate (flatScan .fullyFree (-1)), .integrate cornerScan]
    (∀ o ∈ ops, o.InMap 2) ∧ ops.foldl (CoarseOp.spec 2 (-2) 4) (fun _ => 0) (fun _ => 0) = 2 ∧
    ((ops.foldlM CoarseOp.run (.create ⟨1, -2, 4, 2⟩)).any fun m =>
      decide (m.getCellValue (fun _ => 0) = 3) && decide (m.prune.getCellValue (fun _ => 0) = 2) &&
      decide ((m.forEachLeaf.filter fun e => decide (NodeRegion e.1 fun _ => 0)).map Prod.snd = [2])) = true := by
  refine ⟨?_, by decide +kernel, by decide +kernel⟩
  intro o ho
  simp only [List.mem_cons, List.not_mem_nil, or_false] at ho
  rcases ho with rfl | rfl <;> trivial

/-- Finding: and an update of a coarse node is not seen in the cells that exist already: here the other way round, the cell reads 3 although -1 was added
to it, while after pruning it reads 2. -/
theorem C65_coarse_update_unseen_fails :
    let ops := [CoarseOp.add ⟨0, fun _ => 0⟩ 3, .integrate (flatScan .fullyFree (-1))]
    ops.foldl (CoarseOp.spec 2 (-2) 4) (fun _ => 0) (fun _ => 0) = 2 ∧
    ((ops.foldlM CoarseOp.run (.create ⟨1, -2, 4, 2⟩)).any fun m =>
      decide (m.getCellValue (fun _ => 0) = 3) && decide (m.prune.getCellValue (fun _ => 0) = 2)) = true := by
  decide +kernel

/-! ## The hypotheses are met -/

example : -- a history with coarse and fine updates, two prunings and a map that is not just its root
    let ops := [CoarseOp.add ⟨1, fun _ => -1⟩ (1 / 2), .integrate cornerScan, .prune, .add ⟨0, fun _ => 1⟩ 7, .integrate (flatScan .fullyFree (-1)), .prune]
    (0 : Nat) < 2 ∧ (2 : Nat) ≤ 20 ∧ (-2 : ℚ) ≤ 0 ∧ (0 : ℚ) ≤ 4 ∧ (∀ o ∈ ops, o.InMap 2) ∧ CellInMap 2 (fun _ => 1) ∧
    ((ops.foldlM CoarseOp.run (.create ⟨1, -2, 4, 2⟩)).any fun m => m.root.hasChildrenArray &&
      decide (m.getCellValue (fun _ => 1) = 4) && decide (m.getCellValue (fun _ => -1) = -3 / 2)) = true := by
  refine ⟨by decide, by decide, by decide +kernel, by decide +kernel, ?_, by decide, by decide +kernel⟩
  intro o ho
  simp only [List.mem_cons, List.not_mem_nil, or_false] at ho
  rcases ho with rfl | rfl | rfl | rfl | rfl | rfl
  · exact ⟨by decide, by decide, fun k => by revert k; decide⟩
  · trivial
  · trivial
  · exact ⟨by decide, by decide, fun k => by revert k; decide⟩
  · trivial
  · trivial

example : -- a cell that is updated in a larger node, one that is updated itself, and one that is not observed
    cornerScan.stopHeight (fun _ => -1) 1 = 1 ∧ cornerScan.change (fun _ => -1) 1 = -1 ∧ cornerScan.stopHeight (fun _ => 1) 1 = 0 ∧
    cornerScan.change (fun _ => 1) 0 = 3 := by decide +kernel

end Wavemap
