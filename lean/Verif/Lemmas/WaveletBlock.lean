import Verif.Lemmas.Wavelet
import Verif.Spec.Box
/-! # A wavelet tree with its root scale represents a table of cell values -/
namespace Wavemap
open Haar NTree NdtreeIndex

theorem sum8_eq_range (f : Nat → ℚ) : sum8 (fun c => f c.val) = ((List.range 8).map f).sum := by
  have : List.range 8 = (List.finRange (2 ^ 3)).map Fin.val := by decide
  rw [this, List.map_map]; rfl

theorem boxMean_congr {f g : Index 3 → ℚ} {h : Nat} {c : Index 3} (hfg : ∀ i, InBox h c i → f i = g i) :
    boxMean f h c = boxMean g h c := by
  induction h generalizing c with
  | zero => exact hfg c fun k => by simp
  | succ h ih =>
    simp only [boxMean]
    congr 2
    apply List.map_congr_left
    intro o _
    apply ih
    intro i hi
    apply hfg
    intro k
    have := hi k
    have h2 : octantBit o k = 0 ∨ octantBit o k = 1 := by unfold octantBit; omega
    rw [Int.pow_succ]
    rcases h2 with e | e <;> rw [e] at this <;> constructor <;> omega

theorem boxMean_shift (f : Index 3 → ℚ) (o : Index 3) (h : Nat) (c : Index 3) :
    boxMean (fun i => f fun k => i k - o k) h c = boxMean f h fun k => c k - o k := by
  induction h generalizing c with
  | zero => rfl
  | succ h ih =>
    simp only [boxMean, ih]
    congr 2
    apply List.map_congr_left
    intro b _
    congr 1
    funext k; omega

theorem boxMean_const (k : ℚ) (h : Nat) (c : Index 3) : boxMean (fun _ => k) h c = k := by
  induction h generalizing c with
  | zero => rfl
  | succ h ih => simp only [boxMean, ih, List.map_const', List.length_range, List.sum_replicate]; simp

theorem nodePath_child {H : Nat} (hH : H ≤ 20) (n : NdtreeIndex 3) (hn : NodeInTree H n) (hpos : 0 < n.height)
    (c : Fin (2 ^ 3)) : nodePath H (n.computeChildIndex c.val) = nodePath H n ++ [c] := by
  have hc := hn.child hpos c.val
  have := nodePath_parent (by decide) hH hc (by have := hn.2.1; simp only [computeChildIndex]; omega)
  rw [this, C02_parent_of_child]
  congr 2
  exact Fin.ext (C02_relative_of_child n c.val c.isLt)

/-- The tree represents the table `g` on the internal cells `[0, 2^H)^3`. -/
def Represents (H : Nat) (t : WTree) (s : ℚ) (g : Index 3 → ℚ) : Prop :=
  t ≠ .nil ∧ ∀ j : Index 3, (∀ k, 0 ≤ j k ∧ j k < 2 ^ H) → t.getValue s (nodePath H ⟨0, j⟩) = g j

theorem cellInTree {H : Nat} {j : Index 3} (hj : ∀ k, 0 ≤ j k ∧ j k < 2 ^ H) : NodeInTree H (⟨0, j⟩ : NdtreeIndex 3) :=
  ⟨by simp, by simp, fun k => by simpa using hj k⟩

theorem Represents.node {H : Nat} (hH : H ≤ 20) {t : WTree} {s : ℚ} {g : Index 3 → ℚ}
    (hr : Represents H t s g) (n : NdtreeIndex 3) (hn : NodeInTree H n) :
    t.getValue s (nodePath H n) = boxMean g n.height.toNat fun k => n.position k * 2 ^ n.height.toNat := by
  obtain ⟨h, p⟩ := n
  obtain ⟨h, rfl⟩ : ∃ k : Nat, h = k := ⟨h.toNat, by have := hn.1; simp at this; omega⟩
  induction h generalizing p with
  | zero =>
    have h2 := hr.2 p fun k => by simpa using hn.2.2 k
    simp only [Int.toNat_natCast, boxMean]
    rw [show ((0 : Nat) : Int) = 0 from rfl, h2]
    congr 1; funext k; simp
  | succ h ih =>
    have hpos : (0 : Int) < ((h + 1 : Nat) : Int) := by omega
    have hm := WTree.getValue_mean t s (nodePath H ⟨((h + 1 : Nat) : Int), p⟩)
    simp only [← nodePath_child hH _ hn hpos] at hm
    have hc : ∀ c : Fin (2 ^ 3), t.getValue s (nodePath H (computeChildIndex ⟨((h + 1 : Nat) : Int), p⟩ c.val))
        = boxMean g h fun k => p k * 2 ^ (h + 1) + 2 ^ h * octantBit c.val k := by
      intro c
      have hct := hn.child hpos c.val
      have e : computeChildIndex (⟨((h + 1 : Nat) : Int), p⟩ : NdtreeIndex 3) c.val
          = ⟨((h : Nat) : Int), fun k => p k * 2 + octantBit c.val k⟩ := by
        ext k
        · simp [computeChildIndex]
        · simp [computeChildIndex, octantBit, Nat.shiftRight_eq_div_pow, Nat.and_one_is_mod]
      rw [e] at hct ⊢
      rw [ih _ hct]
      simp only [Int.toNat_natCast]
      congr 1; funext k
      rw [Int.pow_succ]; ring
    simp only [hc] at hm
    rw [sum8_eq_range (fun o => boxMean g h fun k => p k * 2 ^ (h + 1) + 2 ^ h * octantBit o k)] at hm
    simp only [Int.toNat_natCast, boxMean]
    rw [hm]; ring

theorem region_iff_prefix {H : Nat} (hH : H ≤ 20) (n : NdtreeIndex 3) (hn : NodeInTree H n) (j : Index 3)
    (hj : ∀ k, 0 ≤ j k ∧ j k < 2 ^ H) :
    nodePath H n <+: nodePath H ⟨0, j⟩ ↔ NodeRegion n j := by
  rw [nodePath_prefix_iff (by decide) hH hn (cellInTree hj), C03_region_iff_ancestor n hn.1, C03_ancestor_agree]
  unfold IsAncestorOrSelf
  have : ((n.height.toNat : Nat) : Int) = n.height := by have := hn.1; omega
  rw [this]
  constructor
  · exact fun h => h.2
  · exact fun h => ⟨hn.1, h⟩

instance {d : Nat} (n : NdtreeIndex d) (c : Index d) : Decidable (NodeRegion n c) := by
  unfold NodeRegion; infer_instance

theorem Represents.add {H : Nat} (hH : H ≤ 20) {t : WTree} {s : ℚ} {g : Index 3 → ℚ}
    (hr : Represents H t s g) (n : NdtreeIndex 3) (hn : NodeInTree H n) (u : ℚ) :
    Represents H (t.addPath (nodePath H n) u).1 (s + (t.addPath (nodePath H n) u).2)
      fun j => g j + (if NodeRegion n j then u else 0) := by
  refine ⟨WTree.addPath_ne_nil _ hr.1 _ _, fun j hj => ?_⟩
  rw [WTree.addPath_getValue _ hr.1, hr.2 j hj]
  congr 1
  have hiff := region_iff_prefix hH n hn j hj
  by_cases h : NodeRegion n j
  · rw [if_pos (hiff.2 h), if_pos h]
  · rw [if_neg (fun e => h (hiff.1 e)), if_neg h, if_neg]
    intro hpre
    apply h
    apply hiff.1
    have h1 := nodePath_length hn
    have h2 := nodePath_length (cellInTree hj)
    have := hpre.length_le
    have heq : nodePath H ⟨0, j⟩ = nodePath H n := hpre.eq_of_length (by simp at h2; omega)
    rw [heq]

/-- Minimum corner of the parent's box. -/
def parentCorner (n : NdtreeIndex 3) : Index 3 :=
  fun k => n.position k / 2 * 2 ^ (n.height.toNat + 1)

theorem Represents.currentValue {H : Nat} (hH : H ≤ 20) {t : WTree} {s : ℚ} {g : Index 3 → ℚ}
    (hr : Represents H t s g) (n : NdtreeIndex 3) (hn : NodeInTree H n) (hlt : n.height < H) :
    t.currentValue s (nodePath H n) = boxMean g (n.height.toNat + 1) (parentCorner n) := by
  rw [nodePath_parent (by decide) hH hn hlt, WTree.currentValue_eq _ hr.1, hr.node hH _ (hn.parent hlt)]
  have : (n.height + 1).toNat = n.height.toNat + 1 := by have := hn.1; omega
  simp only [computeParentIndex, this, divExp2Floor_eq]
  rfl

end Wavemap
