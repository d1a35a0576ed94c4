import Verif.Lemmas.Ndtree
import Verif.Model.QueryAccelerator
/-! # Morton codes of arbitrary (also negative) octree indices -/
namespace Wavemap
open NdtreeIndex

/-- Bits of the Morton code of any octree index. -/
theorem morton_bit (n : NdtreeIndex 3) (i : Fin 3) (k : Nat) (hj : 3 * k + i.val < 64) :
    (nodeIndexToMorton n).testBit (3 * k + i.val)
      = (decide (n.height.toNat ≤ k) && ibit (n.position i) (k - n.height.toNat)) := by
  unfold nodeIndexToMorton indexToMorton
  rw [Nat.testBit_mod_two_pow, Nat.testBit_shiftLeft]
  generalize n.height.toNat = h
  by_cases hk : h ≤ k
  · have e : 3 * k + i.val - h * 3 = 3 * (k - h) + i.val := by omega
    rw [e, Morton.encodeLut_testBit _ i _ (by omega)]
    have h1 : k - h < 32 := by omega
    have h2 : 3 * k + i.val ≥ h * 3 := by omega
    simp [hj, h1, h2, hk]
  · have h2 : ¬ 3 * k + i.val ≥ h * 3 := by have := i.isLt; omega
    simp [h2, hk]

theorem morton_lt (n : NdtreeIndex 3) : nodeIndexToMorton n < 2 ^ 64 := Nat.mod_lt _ (by decide)

theorem relativeChild_congr (m m' k : Nat) (h : ∀ i : Fin 3, m.testBit (3 * (k - 1) + i.val) = m'.testBit (3 * (k - 1) + i.val)) :
    relativeChildOfMorton 3 m k = relativeChildOfMorton 3 m' k := by
  unfold relativeChildOfMorton
  apply Nat.eq_of_testBit_eq
  intro j
  rw [Nat.testBit_and, Nat.testBit_and, Nat.testBit_shiftRight, Nat.testBit_shiftRight,
    Nat.shiftLeft_eq, Nat.one_mul, Nat.testBit_two_pow_sub_one]
  by_cases hj : j < 3
  · have := h ⟨j, hj⟩
    simp only at this
    rw [Nat.mul_comm (k - 1) 3, this]
  · simp [hj]

theorem mortonChild_eq (m k : Nat) : mortonChild m k = ⟨relativeChildOfMorton 3 m k, relativeChildOfMorton_lt 3 m k⟩ := by
  apply Fin.ext
  exact Nat.mod_eq_of_lt (relativeChildOfMorton_lt 3 m k)

theorem mortonPath_step (m : Nat) {H h : Nat} (hlt : h < H) :
    mortonPath 3 m H h = mortonPath 3 m H (h + 1) ++ [mortonChild m (h + 1)] := by
  rw [mortonPath_succ m hlt, mortonChild_eq]

/-- The position of the octree index inside its block of `2^H` cells per side. -/
def cellInBlock (H : Nat) (n : NdtreeIndex 3) : NdtreeIndex 3 :=
  ⟨n.height, fun i => divExp2FloorRemainder (n.position i) ((H : Int) - n.height).toNat⟩

/-- The block with `2^H` cells per side that contains the node. -/
def blockOfNode (H : Nat) (n : NdtreeIndex 3) : Index 3 := fun i => n.position i / 2 ^ (H - n.height.toNat)

theorem ibit_emod (x : Int) {k e : Nat} (h : k < e) : ibit (x % 2 ^ e) k = ibit x k := by
  unfold ibit
  have e1 : (2 : Int) ^ e = 2 ^ k * (2 * 2 ^ (e - k - 1)) := by
    rw [← Int.pow_succ', ← Int.pow_add]; congr 1; omega
  have e2 : x % 2 ^ e = x - 2 ^ k * (2 * (2 ^ (e - k - 1) * (x / 2 ^ e))) := by
    rw [Int.emod_def]
    generalize x / 2 ^ e = y
    rw [e1]; ring
  rw [e2, Int.sub_mul_ediv_left _ _ (Int.ne_of_gt (two_pow_pos' k))]
  congr 1
  apply propext
  generalize 2 ^ (e - k - 1) * (x / 2 ^ e) = z
  omega

theorem mortonPath_cellInBlock {H : Nat} (hH : H ≤ 20) (n : NdtreeIndex 3) (h0 : 0 ≤ n.height) (hn : n.height ≤ H) (h' : Nat) :
    mortonPath 3 (nodeIndexToMorton (cellInBlock H n)) H h' = mortonPath 3 (nodeIndexToMorton n) H h' := by
  apply mortonPath_congr
  intro k hk1 hk2
  apply relativeChild_congr
  intro i
  have hi := i.isLt
  rw [morton_bit _ _ _ (by omega), morton_bit _ _ _ (by omega)]
  simp only [cellInBlock]
  by_cases hk : n.height.toNat ≤ k - 1
  · have hlt : k - 1 - n.height.toNat < ((H : Int) - n.height).toNat := by
      have : 1 ≤ k := by omega
      omega
    rw [divExp2FloorRemainder_eq _ _ (by omega), ibit_emod _ hlt]
    rfl
  · simp [hk]

theorem nodePath_cellInBlock {H : Nat} (hH : H ≤ 20) (n : NdtreeIndex 3) (h0 : 0 ≤ n.height) (hn : n.height ≤ H) :
    nodePath H (cellInBlock H n) = mortonPath 3 (nodeIndexToMorton n) H n.height.toNat :=
  mortonPath_cellInBlock hH n h0 hn _

theorem ibit_ediv (x : Int) (s k : Nat) : ibit (x / 2 ^ s) k = ibit x (s + k) := by
  rw [← divExp2Floor_eq]; exact ibit_divExp2Floor x s k

/-- Nodes of the same block agree in the Morton code above the block. -/
theorem morton_sameBlock {H : Nat} (n n' : NdtreeIndex 3) (hn : n.height ≤ H)
    (hn' : n'.height ≤ H) (hb : blockOfNode H n = blockOfNode H n') :
    nodeIndexToMorton n / 2 ^ (H * 3) = nodeIndexToMorton n' / 2 ^ (H * 3) := by
  apply Nat.eq_of_testBit_eq
  intro j
  rw [Nat.testBit_div_two_pow, Nat.testBit_div_two_pow]
  by_cases hj : j + H * 3 < 64
  · have e : j + H * 3 = 3 * (j / 3 + H) + (⟨j % 3, Nat.mod_lt _ (by decide)⟩ : Fin 3).val := by
      simp only; omega
    rw [e] at hj ⊢
    rw [morton_bit _ _ _ hj, morton_bit _ _ _ hj]
    have h1 : n.height.toNat ≤ j / 3 + H := by omega
    have h2 : n'.height.toNat ≤ j / 3 + H := by omega
    simp only [h1, h2, decide_true, Bool.true_and]
    have e1 : j / 3 + H - n.height.toNat = (H - n.height.toNat) + j / 3 := by omega
    have e2 : j / 3 + H - n'.height.toNat = (H - n'.height.toNat) + j / 3 := by omega
    rw [e1, e2, ← ibit_ediv, ← ibit_ediv]
    have := congrFun hb ⟨j % 3, Nat.mod_lt _ (by decide)⟩
    simp only [blockOfNode] at this
    rw [this]
  · rw [Nat.testBit_lt_two_pow (Nat.lt_of_lt_of_le (morton_lt n) (Nat.pow_le_pow_right (by decide) (by omega))),
      Nat.testBit_lt_two_pow (Nat.lt_of_lt_of_le (morton_lt n') (Nat.pow_le_pow_right (by decide) (by omega)))]

/-- What the last common ancestor height computed from Morton codes is good for: above it the paths agree. -/
theorem lca_spec {m m' h h' : Nat} (hm : m < 2 ^ 64) (hm' : m' < 2 ^ 64) :
    h ≤ lastCommonAncestorHeight 3 m h m' h' ∧ h' ≤ lastCommonAncestorHeight 3 m h m' h' ∧
      ∀ H k, lastCommonAncestorHeight 3 m h m' h' ≤ k → mortonPath 3 m H k = mortonPath 3 m' H k := by
  obtain ⟨h1, h2, h3⟩ := (C04_lca_morton 3 m h m' h' _ (by decide) hm hm').1 (Nat.le_refl _)
  refine ⟨h1, h2, fun H k hk => ?_⟩
  apply mortonPath_congr
  intro q hq1 hq2
  apply relativeChild_congr
  intro i
  have hi := i.isLt
  have e : 3 * (q - 1) + i.val = (3 * (q - 1) + i.val - lastCommonAncestorHeight 3 m h m' h' * 3)
      + lastCommonAncestorHeight 3 m h m' h' * 3 := by omega
  rw [e, ← Nat.testBit_div_two_pow, ← Nat.testBit_div_two_pow, h3]

theorem lca_le {m m' h h' H : Nat} (hm : m < 2 ^ 64) (hm' : m' < 2 ^ 64) (hh : h ≤ H) (hh' : h' ≤ H)
    (he : m / 2 ^ (H * 3) = m' / 2 ^ (H * 3)) : lastCommonAncestorHeight 3 m h m' h' ≤ H :=
  (C04_lca_morton 3 m h m' h' _ (by decide) hm hm').2 ⟨hh, hh', he⟩

end Wavemap
