import Verif.Lemmas.Index
import Verif.Props.Morton
import Mathlib.Data.Fin.VecNotation
import Mathlib.Tactic.Ring
import Mathlib.Data.List.Nodup
/-!
# C02, C03, C04 – node index algebra, regions, last common ancestor
-/
namespace Wavemap
open NdtreeIndex
variable {d : Nat}

/-! ## C02 Parent/child index algebra -/

/-- The parent of a child is the node itself. -/
theorem C02_parent_of_child (n : NdtreeIndex d) (c : Nat) :
    (n.computeChildIndex c).computeParentIndex = n := by
  ext
  · simp [computeParentIndex, computeChildIndex]
  · simp only [computeParentIndex, computeChildIndex, divExp2Floor_eq, Nat.and_one_is_mod]
    omega

/-- A child's relative child number is the number it was created with. -/
theorem C02_relative_of_child (n : NdtreeIndex d) (c : Nat) (hc : c < 2 ^ d) :
    (n.computeChildIndex c).computeRelativeChildIndex = c := by
  rw [relChild_eq _ (fun i => (c >>> i) &&& 1), bits_sum, Nat.mod_eq_of_lt hc]
  intro i
  simp only [computeChildIndex, Nat.and_one_is_mod]
  omega

/-- Distinct child numbers give distinct children, and different nodes never share a child. -/
theorem C02_children_distinct (n n' : NdtreeIndex d) (c c' : Nat) (hc : c < 2 ^ d) (hc' : c' < 2 ^ d)
    (h : n.computeChildIndex c = n'.computeChildIndex c') : n = n' ∧ c = c' := by
  constructor
  · rw [← C02_parent_of_child n c, h, C02_parent_of_child]
  · rw [← C02_relative_of_child n c hc, h, C02_relative_of_child n' c' hc']

/-- Every node is the child of its parent given by its own relative child number, which is a valid
child number. -/
theorem C02_child_of_parent (n : NdtreeIndex d) :
    n.computeRelativeChildIndex < 2 ^ d ∧
      n.computeParentIndex.computeChildIndex n.computeRelativeChildIndex = n := by
  obtain ⟨h1, h2⟩ := relChild_spec n
  refine ⟨h1, ?_⟩
  ext i
  · simp [computeParentIndex, computeChildIndex]
  · simp only [computeChildIndex, computeParentIndex, h2, divExp2Floor_eq]
    omega

/-- `computeChildIndices` lists exactly the `2^d` distinct nodes whose parent is `n`. -/
theorem C02_child_indices (n : NdtreeIndex d) :
    n.computeChildIndices.Nodup ∧ n.computeChildIndices.length = 2 ^ d ∧
      ∀ m, m ∈ n.computeChildIndices ↔ m.computeParentIndex = n := by
  refine ⟨?_, by simp [computeChildIndices, exp2_eq], ?_⟩
  · unfold computeChildIndices
    rw [exp2_eq]
    apply List.Nodup.map_on _ List.nodup_range
    intro a ha b hb h
    exact (C02_children_distinct n n a b (List.mem_range.mp ha) (List.mem_range.mp hb) h).2
  · intro m
    simp only [computeChildIndices, List.mem_map, List.mem_range, exp2_eq]
    constructor
    · rintro ⟨c, _, rfl⟩; exact C02_parent_of_child n c
    · rintro rfl
      exact ⟨_, (C02_child_of_parent m).1, (C02_child_of_parent m).2⟩

/-- Going up zero levels is the identity and going up by one level is `computeParentIndex()`. -/
theorem C02_parentAt_base (n : NdtreeIndex d) :
    n.computeParentIndexAt n.height = n ∧
      n.computeParentIndexAt (n.height + 1) = n.computeParentIndex := by
  constructor
  · ext <;> simp [computeParentIndexAt, divExp2Floor]
  · ext <;> simp [computeParentIndexAt, computeParentIndex]

/-- Going up in two jumps equals going up in one. -/
theorem C02_parentAt_trans (n : NdtreeIndex d) (h₁ h₂ : Int) (h1 : n.height ≤ h₁) (h2 : h₁ ≤ h₂) :
    (n.computeParentIndexAt h₁).computeParentIndexAt h₂ = n.computeParentIndexAt h₂ := by
  ext
  · rfl
  · simp only [computeParentIndexAt, divExp2Floor_add]
    congr 1; omega

/-- Going up `k` levels one at a time equals one jump. -/
theorem C02_parentAt_iterate (n : NdtreeIndex d) (k : Nat) :
    Nat.repeat computeParentIndex k n = n.computeParentIndexAt (n.height + k) := by
  induction k with
  | zero =>
    show n = _
    simpa using (C02_parentAt_base n).1.symm
  | succ k ih =>
    simp only [Nat.repeat]
    rw [ih]
    have := C02_parentAt_trans n (n.height + k) (n.height + k + 1) (by omega) (by omega)
    rw [← (C02_parentAt_base (n.computeParentIndexAt (n.height + k))).2]
    rw [show (n.computeParentIndexAt (n.height + ↑k)).height = n.height + k from rfl, this]
    congr 1; push_cast; ring

/-- A negative position, to show the claims are about floor, not truncation. -/
example : (NdtreeIndex.mk 0 (![-1, -3, 4] : Index 3)).computeParentIndex.position = ![-1, -2, 2] ∧
    (NdtreeIndex.mk 0 (![-1, -3, 4] : Index 3)).computeRelativeChildIndex = 3 := by
  refine ⟨?_, by decide⟩
  funext i; revert i; decide

/-! ## C03 Node regions tile space -/

/-- The region of a node: the cells whose coordinates lie in the half-open box of side `2^height`
at `position * 2^height`. -/
def NodeRegion (n : NdtreeIndex d) (c : Index d) : Prop :=
  ∀ i, n.position i * 2 ^ n.height.toNat ≤ c i ∧ c i < (n.position i + 1) * 2 ^ n.height.toNat

/-- The corner indices span exactly the region. -/
theorem C03_corners_span_region (n : NdtreeIndex d) (c : Index d) :
    (∀ i, nodeIndexToMinCornerIndex n i ≤ c i ∧ c i ≤ nodeIndexToMaxCornerIndex n i)
      ↔ NodeRegion n c := by
  unfold NodeRegion
  apply forall_congr'
  intro i
  simp only [nodeIndexToMaxCornerIndex, nodeIndexToMinCornerIndex, multExp2_eq, exp2_eq]
  push_cast
  rw [Int.add_mul, Int.one_mul]
  generalize n.position i * 2 ^ n.height.toNat = a
  generalize (2 : Int) ^ n.height.toNat = w
  omega

/-- A cell is in a node's region iff its ancestor at the node's height is the node. -/
theorem C03_region_iff_ancestor (n : NdtreeIndex d) (hn : 0 ≤ n.height) (c : Index d) :
    NodeRegion n c ↔ indexAndHeightToNodeIndex c n.height.toNat = n := by
  constructor
  · intro h
    ext i
    · simp [indexAndHeightToNodeIndex, hn]
    · exact (divExp2Floor_iff _ _ _).mpr (h i)
  · intro h i
    have : (indexAndHeightToNodeIndex c n.height.toNat).position i = n.position i := by rw [h]
    exact (divExp2Floor_iff _ _ _).mp this

/-- The ancestor of a cell via `indexAndHeightToNodeIndex` is the one via `computeParentIndex`. -/
theorem C03_ancestor_agree (c : Index d) (h : Nat) :
    indexAndHeightToNodeIndex c h = (NdtreeIndex.mk 0 c).computeParentIndexAt h := by
  ext <;> simp [indexAndHeightToNodeIndex, computeParentIndexAt]

/-- A node's region is the disjoint union of its children's regions: each cell of it lies in the
region of exactly one child, and children's regions lie within it. -/
theorem C03_children_partition (n : NdtreeIndex d) (hn : 0 < n.height) (c : Index d) :
    (NodeRegion n c ↔ ∃ k < 2 ^ d, NodeRegion (n.computeChildIndex k) c) ∧
      ∀ k < 2 ^ d, ∀ k' < 2 ^ d, NodeRegion (n.computeChildIndex k) c →
        NodeRegion (n.computeChildIndex k') c → k = k' := by
  have hch : ∀ k, 0 ≤ (n.computeChildIndex k).height := by
    intro k; simp [computeChildIndex]; omega
  have hht : ∀ k, (n.computeChildIndex k).height.toNat = (n.height - 1).toNat := fun k => rfl
  have hpar : indexAndHeightToNodeIndex c n.height.toNat
      = (indexAndHeightToNodeIndex c (n.height - 1).toNat).computeParentIndex := by
    ext i
    · simp [indexAndHeightToNodeIndex, computeParentIndex]; omega
    · simp only [indexAndHeightToNodeIndex, computeParentIndex, divExp2Floor_add]
      congr 1; omega
  constructor
  · rw [C03_region_iff_ancestor n (by omega), hpar]
    constructor
    · intro h
      refine ⟨_, (C02_child_of_parent (indexAndHeightToNodeIndex c (n.height - 1).toNat)).1, ?_⟩
      rw [C03_region_iff_ancestor _ (hch _), hht]
      have key := (C02_child_of_parent (indexAndHeightToNodeIndex c (n.height - 1).toNat)).2
      rw [h] at key
      exact key.symm
    · rintro ⟨k, _, h⟩
      rw [C03_region_iff_ancestor _ (hch _), hht] at h
      rw [h, C02_parent_of_child]
  · intro k hk k' hk' h h'
    rw [C03_region_iff_ancestor _ (hch _), hht] at h h'
    exact (C02_children_distinct n n k k' hk hk' (h.symm.trans h')).2

/-- Nodes at the same height overlap only if equal. -/
theorem C03_same_height_disjoint (n m : NdtreeIndex d) (hn : 0 ≤ n.height)
    (hh : n.height = m.height) (c : Index d) (h1 : NodeRegion n c) (h2 : NodeRegion m c) : n = m := by
  rw [C03_region_iff_ancestor _ hn] at h1
  rw [C03_region_iff_ancestor _ (by omega)] at h2
  rw [← h1, ← h2, hh]

/-- Every cell lies in exactly one node of each height. -/
theorem C03_cover (c : Index d) (h : Nat) : NodeRegion (indexAndHeightToNodeIndex c h) c := by
  rw [C03_region_iff_ancestor _ (by simp [indexAndHeightToNodeIndex])]
  simp [indexAndHeightToNodeIndex]

example : NodeRegion (NdtreeIndex.mk 2 (![-1, 0] : Index 2)) ![-4, 3] := by
  unfold NodeRegion; decide

/-! ## C04 Last common ancestor -/

theorem xor_eq_zero_imp {a b : Nat} (h : a ^^^ b = 0) : a = b := by
  apply Nat.eq_of_testBit_eq
  intro i
  have := congrArg (fun x => x.testBit i) h
  simpa using this

theorem shift_eq_iff (a b s : Nat) : a >>> s = b >>> s ↔ (a ^^^ b) < 2 ^ s := by
  constructor
  · intro h
    have : (a ^^^ b) >>> s = 0 := by rw [Nat.shiftRight_xor_distrib, h, Nat.xor_self]
    rw [Nat.shiftRight_eq_div_pow] at this
    exact (Nat.div_eq_zero_iff_lt (Nat.two_pow_pos s)).mp this
  · intro h
    have : (a ^^^ b) >>> s = 0 := by
      rw [Nat.shiftRight_eq_div_pow, Nat.div_eq_of_lt h]
    rw [Nat.shiftRight_xor_distrib] at this
    exact xor_eq_zero_imp this

theorem divRoundUp_le_iff (n k h : Nat) (hk : 0 < k) : divRoundUp n k ≤ h ↔ n ≤ h * k := by
  unfold divRoundUp
  have h1 := Nat.div_add_mod n k
  have h2 := Nat.mod_lt n hk
  split
  · rename_i hne
    constructor
    · intro h3
      have : (n / k + 1) * k ≤ h * k := Nat.mul_le_mul_right k h3
      rw [Nat.add_mul, Nat.one_mul, Nat.mul_comm] at this
      omega
    · intro h3
      have h4 : k * (n / k) < h * k := by omega
      rw [Nat.mul_comm] at h4
      exact Nat.lt_of_mul_lt_mul_right h4
  · rename_i he
    have he : n % k = 0 := by omega
    constructor
    · intro h3
      have : (n / k) * k ≤ h * k := Nat.mul_le_mul_right k h3
      rw [Nat.mul_comm] at this
      omega
    · intro h3
      have h4 : k * (n / k) ≤ h * k := by omega
      rw [Nat.mul_comm] at h4
      exact Nat.le_of_mul_le_mul_right h4 hk

/-- Characterisation on Morton indices: a height `h` is at least the reported height iff it is at
least both nodes' heights and both Morton indices have the same prefix above `h`. -/
theorem C04_lca_morton (dim m₁ h₁ m₂ h₂ h : Nat) (hd : 0 < dim) (hm₁ : m₁ < 2 ^ 64) (hm₂ : m₂ < 2 ^ 64) :
    lastCommonAncestorHeight dim m₁ h₁ m₂ h₂ ≤ h
      ↔ h₁ ≤ h ∧ h₂ ≤ h ∧ m₁ / 2 ^ (h * dim) = m₂ / 2 ^ (h * dim) := by
  unfold lastCommonAncestorHeight
  simp only []
  split
  · rename_i he; subst he
    simp
  · rename_i hne
    have hx : m₁ ^^^ m₂ ≠ 0 := fun h => hne (xor_eq_zero_imp h)
    have hlt : m₁ ^^^ m₂ < 2 ^ 64 := Nat.xor_lt_two_pow hm₁ hm₂
    have hlog : (m₁ ^^^ m₂).log2 < 64 := (Nat.log2_lt hx).mpr hlt
    have hb : 64 - clz64 (m₁ ^^^ m₂) = (m₁ ^^^ m₂).log2 + 1 := by unfold clz64; omega
    rw [hb]
    have hs : m₁ / 2 ^ (h * dim) = m₂ / 2 ^ (h * dim) ↔ (m₁ ^^^ m₂).log2 + 1 ≤ h * dim := by
      rw [← Nat.shiftRight_eq_div_pow, ← Nat.shiftRight_eq_div_pow, shift_eq_iff,
        ← Nat.log2_lt hx]
      rfl
    rw [hs, ← divRoundUp_le_iff _ _ _ hd]
    omega

/-- A node inside the octree's index range: height and position non-negative, and all of its cells
have coordinates below the Morton limit (`2^20` in 3D, `2^31` in 1D and 2D). -/
def NodeInRange (n : NdtreeIndex d) : Prop :=
  0 ≤ n.height ∧ ∀ i, 0 ≤ n.position i ∧
    (n.position i + 1) * 2 ^ n.height.toNat ≤ 2 ^ (if d < 3 then 31 else 20)

theorem NodeInRange.position {n : NdtreeIndex d} (h : NodeInRange n) : MortonInRange n.position := by
  intro i
  obtain ⟨h1, h2⟩ := h.2 i
  refine ⟨h1, ?_⟩
  have hp := two_pow_pos' n.height.toNat
  have : n.position i + 1 ≤ (n.position i + 1) * 2 ^ n.height.toNat := by nlinarith
  split at h2 <;> rename_i hd <;> simp only [hd, if_true, if_false] <;> omega

theorem NodeInRange.height_lt {n : NdtreeIndex d} (h : NodeInRange n) (i : Fin d) :
    n.height.toNat ≤ (if d < 3 then 31 else 20) := by
  obtain ⟨h1, h2⟩ := h.2 i
  have hp := two_pow_pos' n.height.toNat
  have h3 : (2 : Int) ^ n.height.toNat ≤ 2 ^ (if d < 3 then 31 else 20) := by nlinarith
  exact (pow_le_pow_iff_right₀ (by decide : (1 : Int) < 2)).mp h3

/-- The Morton index of an in-range node, bit by bit. -/
theorem nodeIndexToMorton_testBit (hd : 1 ≤ d ∧ d ≤ 3) (n : NdtreeIndex d) (hn : NodeInRange n)
    (i : Fin d) (k : Nat) :
    (nodeIndexToMorton n).testBit (d * k + i.val)
      = (decide (n.height.toNat ≤ k) && ibit (n.position i) (k - n.height.toNat)) := by
  have hpos := hn.position
  have hi := i.isLt
  unfold nodeIndexToMorton indexToMorton
  rw [Nat.testBit_mod_two_pow, Nat.testBit_shiftLeft]
  have hH := hn.height_lt i
  generalize hh : n.height.toNat = h at *
  by_cases hk : h ≤ k
  · obtain ⟨k', rfl⟩ : ∃ k', k = h + k' := ⟨k - h, by omega⟩
    have e1 : h * d ≤ d * (h + k') + i.val := by
      rw [Nat.mul_add, Nat.mul_comm d h]; omega
    have e2 : d * (h + k') + i.val - h * d = d * k' + i.val := by
      rw [Nat.mul_add, Nat.mul_comm d h]; omega
    simp only [e1, e2, hk, decide_true, Bool.true_and, Nat.add_sub_cancel_left]
    -- bits of position vanish above the limit minus the height
    have hz : (if d < 3 then 31 else 20) ≤ h + k' → ibit (n.position i) k' = false := by
      intro hge
      have hb : n.position i < 2 ^ ((if d < 3 then 31 else 20) - h) := by
        obtain ⟨h1, h2⟩ := hn.2 i
        rw [hh] at h2
        have h3 : (2 : Int) ^ (if d < 3 then 31 else 20)
            = 2 ^ ((if d < 3 then 31 else 20) - h) * 2 ^ h := by
          rw [← pow_add]; congr 1; omega
        rw [h3] at h2
        have := le_of_mul_le_mul_right h2 (two_pow_pos' h)
        omega
      exact Morton.ibit_eq_false_of_lt _ _ _ (hpos i).1 hb (by omega)
    by_cases hlim : (if d < 3 then 31 else 20) ≤ h + k'
    · rw [hz hlim]
      by_cases hj : d * k' + i.val < 64
      · rw [Morton.encodeLut_testBit _ i k' hj, hz hlim]; simp
      · rw [Nat.testBit_lt_two_pow (Nat.lt_of_lt_of_le (Morton.encodeLut_lt _)
          (Nat.pow_le_pow_right (by decide) (by omega)))]
        simp
    · have hj : d * (h + k') + i.val < 64 := by
        obtain rfl | rfl | rfl : d = 1 ∨ d = 2 ∨ d = 3 := by omega
        all_goals (simp at hlim; omega)
      have hj' : d * k' + i.val < 64 := by rw [Nat.mul_add] at hj; omega
      have hk32 : k' < 32 := by split at hlim <;> omega
      rw [Morton.encodeLut_testBit _ i k' hj']
      simp [hj, hk32]
  · have e1 : ¬ h * d ≤ d * k + i.val := by
      have := Nat.mul_le_mul_left d (show k + 1 ≤ h by omega)
      rw [Nat.mul_add, Nat.mul_one, Nat.mul_comm d h] at this
      omega
    simp [e1, hk]

theorem ibit_divExp2Floor (x : Int) (s k : Nat) : ibit (divExp2Floor x s) k = ibit x (s + k) :=
  ibit_shiftRight x s k

theorem eq_of_ibit {a b : Int} (ha : 0 ≤ a) (hb : 0 ≤ b) (h : ∀ k, ibit a k = ibit b k) : a = b := by
  have : a.toNat = b.toNat := by
    apply Nat.eq_of_testBit_eq
    intro k
    rw [toNat_testBit_of_nonneg a ha, toNat_testBit_of_nonneg b hb, h]
  omega

/-- For nodes in the octree's index range, a height `h` is at least the reported height iff both
nodes are not above `h` and have the same ancestor at `h`. So the reported height is that of the
lowest common ancestor. -/
theorem C04_lca_is_lowest_common_ancestor (hd : 1 ≤ d ∧ d ≤ 3) (n m : NdtreeIndex d)
    (hn : NodeInRange n) (hm : NodeInRange m) (h : Nat) :
    lastCommonAncestorHeight d (nodeIndexToMorton n) n.height.toNat (nodeIndexToMorton m)
        m.height.toNat ≤ h
      ↔ n.height ≤ h ∧ m.height ≤ h ∧ n.computeParentIndexAt h = m.computeParentIndexAt h := by
  rw [C04_lca_morton d _ _ _ _ h hd.1 (show nodeIndexToMorton n < _ from Nat.mod_lt _ (by decide))
    (show nodeIndexToMorton m < _ from Nat.mod_lt _ (by decide))]
  have hn0 := hn.1
  have hm0 := hm.1
  have a1 : n.height.toNat ≤ h ↔ n.height ≤ h := by omega
  have a2 : m.height.toNat ≤ h ↔ m.height ≤ h := by omega
  rw [a1, a2]
  apply and_congr_right
  intro hnh
  apply and_congr_right
  intro hmh
  have bit : ∀ (n : NdtreeIndex d), NodeInRange n → n.height ≤ h → ∀ (i : Fin d) (k : Nat),
      (nodeIndexToMorton n / 2 ^ (h * d)).testBit (d * k + i.val)
        = ibit ((n.computeParentIndexAt h).position i) k := by
    intro n hn hnh i k
    have hn0 := hn.1
    rw [Nat.testBit_div_two_pow, show d * k + i.val + h * d = d * (k + h) + i.val by ring,
      nodeIndexToMorton_testBit hd n hn]
    simp only [computeParentIndexAt, ibit_divExp2Floor]
    have b1 : n.height.toNat ≤ k + h := by omega
    simp only [b1, decide_true, Bool.true_and]
    congr 1; omega
  have pos : ∀ (n : NdtreeIndex d), NodeInRange n → ∀ i,
      0 ≤ (n.computeParentIndexAt h).position i := by
    intro n hn i
    simp only [computeParentIndexAt, divExp2Floor_eq]
    exact Int.ediv_nonneg (hn.2 i).1 (Int.le_of_lt (two_pow_pos' _))
  constructor
  · intro he
    ext i
    · rfl
    · apply eq_of_ibit (pos n hn i) (pos m hm i)
      intro k
      rw [← bit n hn hnh, ← bit m hm hmh, he]
  · intro he
    apply Nat.eq_of_testBit_eq
    intro j
    have hdm : d * (j / d) + j % d = j := Nat.div_add_mod j d
    have b1 := bit n hn hnh ⟨j % d, Nat.mod_lt _ hd.1⟩ (j / d)
    have b2 := bit m hm hmh ⟨j % d, Nat.mod_lt _ hd.1⟩ (j / d)
    simp only [hdm] at b1 b2
    rw [b1, b2, he]

/-- The child number read from the Morton index is the node's relative child number. -/
theorem C02_relative_child_of_morton (hd : 1 ≤ d ∧ d ≤ 3) (n : NdtreeIndex d) (hn : NodeInRange n) :
    relativeChildOfMorton d (nodeIndexToMorton n) (n.height.toNat + 1)
      = n.computeRelativeChildIndex := by
  obtain ⟨h1, h2⟩ := relChild_spec n
  unfold relativeChildOfMorton
  rw [Nat.add_sub_cancel]
  apply Nat.eq_of_testBit_eq
  intro j
  rw [Nat.testBit_and, Nat.testBit_shiftRight, Nat.shiftLeft_eq, Nat.one_mul,
    Nat.testBit_two_pow_sub_one]
  by_cases hj : j < d
  · have b := nodeIndexToMorton_testBit hd n hn ⟨j, hj⟩ n.height.toNat
    simp only [Nat.sub_self, decide_true, Bool.true_and, Nat.le_refl] at b
    rw [Nat.mul_comm, b]
    have h3 := h2 ⟨j, hj⟩
    simp only [hj, decide_true, Bool.and_true]
    rw [Nat.testBit_eq_decide_div_mod_eq, ibit]
    simp only [Nat.and_one_is_mod, Nat.shiftRight_eq_div_pow] at h3
    congr 1
    simp only [pow_zero, Int.ediv_one]
    apply propext
    omega
  · simp only [hj, decide_false, Bool.and_false]
    symm
    apply Nat.testBit_lt_two_pow
    exact Nat.lt_of_lt_of_le h1 (Nat.pow_le_pow_right (by decide) (by omega))

example : NodeInRange (NdtreeIndex.mk 3 (![5, 0, 131071] : Index 3)) := by
  unfold NodeInRange; decide

/-- Two leaves whose lowest common ancestor is at height 2. -/
example : lastCommonAncestorHeight 3 (nodeIndexToMorton ⟨0, (![1, 2, 0] : Index 3)⟩) 0
    (nodeIndexToMorton ⟨0, (![1, 1, 0] : Index 3)⟩) 0 = 2 := by decide

end Wavemap
