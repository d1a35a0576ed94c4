import Verif.Lemmas.SingleOverflow
import Verif.Props.SingleChunked
import Verif.Props.Ieee
/-!
# C80: no overflow in single precision

Single precision numbers end just below `2 ^ 128`; the rounding `fl` of the other theorems goes on beyond that. Here the rounding may do anything beyond it (an IEEE processor returns an
infinity). The wavelet coefficients stay so small that this never happens: running with any such rounding gives the same map and the same values.
-/
namespace Wavemap
open Haar

/-! ## Specification -/

/-- Rounding to single precision as long as the number does not overflow: IEEE 754 rounds all numbers below `2 ^ 128 - 2 ^ 103` to a finite single precision number. Nothing is said about
the other numbers. -/
def RoundsUnlessOverflow (r : ℚ → ℚ) : Prop := ∀ x, |x| < 2 ^ 128 - 2 ^ 103 → r x = fl x

/-- The effect of an operation with a given rounding. -/
def HashedUpdate.runWith (r : ℚ → ℚ) (m : HashedWaveletOctree) : HashedUpdate → HashedWaveletOctree
  | .add i u now => Rounded.hashedAdd r m i u now
  | .threshold => Rounded.hashedThreshold r m
  | .prune => Rounded.hashedPrune r m
  | .pruneSmart now => Rounded.hashedPruneSmart r m now
  | .clear => m.clear

/-- The effect of an operation on hashed blocks with a given rounding. -/
def HashedBlocksOp.runWith (r : ℚ → ℚ) (m : HashedBlocks) : HashedBlocksOp → HashedBlocks
  | .add i u => Rounded.hashedBlocksAdd r m i u
  | o => o.run m

/-- The number of updates since the last thresholding, pruning or clearing of the whole map. -/
def HashedUpdate.pending (ops : List HashedUpdate) : Nat :=
  ops.foldl (fun n o => match o with
    | .add _ _ _ => n + 1
    | .pruneSmart _ => n
    | _ => 0) 0

/-- Updates are of a moderate size: no more than `2 ^ 32`. -/
def HashedUpdate.Moderate : HashedUpdate → Prop
  | .add _ u _ => |u| ≤ 2 ^ 32
  | _ => True

/-! ## Invariant -/

namespace SingleOverflow
open Rounded

/-- What is known about a block after `n` updates without a thresholding. -/
structure BlockBnd (H : Nat) (lo hi : ℚ) (n : Nat) (b : WaveletBlock) : Prop where
  height : b.treeHeight = H
  lo : b.minLogOdds = lo
  hi : b.maxLogOdds = hi
  root : b.root ≠ .nil
  depth : WTree.DepthLe H b.root
  flags : b.needsThresholding = true → b.needsPruning = true
  scale : |b.rootScale| ≤ (n + 1 : Nat) * 2 ^ 92
  tree : BndTree ((n + 1 : Nat) * 2 ^ 92) b.root
  clean : b.needsThresholding = false → |b.rootScale| ≤ 2 ^ 92 ∧ BndTree (2 ^ 92) b.root

variable {r : ℚ → ℚ} {H n : Nat} {lo hi : ℚ} {b : WaveletBlock}

theorem grid_mono {k l : Nat} (h : k ≤ l) : (k : ℚ) * 2 ^ 92 ≤ (l : ℚ) * 2 ^ 92 := mul_le_mul_of_nonneg_right (by exact_mod_cast h) (by positivity)

theorem one_grid (n : Nat) : (2 : ℚ) ^ 92 ≤ ((n + 1 : Nat) : ℚ) * 2 ^ 92 := by
  have := grid_mono (k := 1) (l := n + 1) (by omega)
  rwa [Nat.cast_one, one_mul] at this

theorem BlockBnd.mono (h : BlockBnd H lo hi n b) {l : Nat} (hl : n ≤ l) : BlockBnd H lo hi l b :=
  { h with scale := h.scale.trans (grid_mono (by omega)), tree := h.tree.mono (grid_mono (by omega)) }

/-- A thresholded block. -/
theorem BlockBnd.fresh (h : BlockBnd H lo hi n b) (hc : b.needsThresholding = false) (l : Nat) : BlockBnd H lo hi l b :=
  { h with scale := (h.clean hc).1.trans (one_grid l), tree := (h.clean hc).2.mono (one_grid l) }

theorem BlockBnd.create (hpos : 0 < H) (n : Nat) (now : ℚ) : BlockBnd H lo hi n (WaveletBlock.create H lo hi now) := by
  obtain ⟨h, rfl⟩ : ∃ h, H = h + 1 := ⟨H - 1, by omega⟩
  have h0 : |(0 : ℚ)| ≤ 2 ^ 92 := by rw [abs_zero]; positivity
  have h1 : BndTree (2 ^ 92) (.leaf zeroDetails) := bndTree_zero (by positivity)
  exact ⟨rfl, rfl, rfl, by simp [WaveletBlock.create], WTree.DepthLe.leaf _ _, (fun h => by cases h), h0.trans (one_grid n), h1.mono (one_grid n), fun _ => ⟨h0, h1⟩⟩

theorem add_eq (hr : RoundsUnlessOverflow r) (hn : n + 2 < 2 ^ 24) (h : BlockBnd H lo hi n b) (c : Index 3) {u : ℚ} (hu : |u| ≤ 2 ^ 32) (now : ℚ) :
    blockAdd r b ⟨0, c⟩ u now = blockAdd fl b ⟨0, c⟩ u now ∧ BlockBnd H lo hi (n + 1) (blockAdd fl b ⟨0, c⟩ u now) := by
  obtain ⟨e1, e2, e3, e4⟩ := addPath_bound hr (n := n + 1) hn (nodePath b.treeHeight ⟨0, c⟩) h.root h.tree (hu.trans (pow_le_pow_right₀ (by norm_num) (by norm_num)))
  have hs : |b.rootScale + (addPath fl b.root (nodePath b.treeHeight ⟨0, c⟩) u).2| ≤ ((n + 1 + 1 : Nat) : ℚ) * 2 ^ 92 := by
    refine (abs_add_le _ _).trans ((add_le_add h.scale e2).trans (le_of_eq ?_))
    push_cast; ring
  have hle : ((n + 1 + 1 : Nat) : ℚ) * 2 ^ 92 ≤ 2 ^ 127 := by
    have h1 : ((n + 1 + 1 : Nat) : ℚ) ≤ 2 ^ 24 := by exact_mod_cast hn.le
    calc ((n + 1 + 1 : Nat) : ℚ) * 2 ^ 92 ≤ 2 ^ 24 * 2 ^ 92 := mul_le_mul_of_nonneg_right h1 (by positivity)
      _ ≤ 2 ^ 127 := by norm_num
  obtain ⟨e5, e6⟩ := exact_of hr (isFloat_grid hn 92) hle hs
  unfold blockAdd
  dsimp only
  rw [e1, e5]
  refine ⟨rfl, h.height, h.lo, h.hi, e4, ?_, fun _ => rfl, e6, e3, fun h => by cases h⟩
  exact roundedAddPath_depth h.root h.depth _ (by rw [h.height, SingleChunked.path_length]) u

theorem le_readBound (hn : n + 1 < 2 ^ 24) : ((n + 1 : Nat) : ℚ) * 2 ^ 92 ≤ readBound := by
  have h1 : ((n + 1 : Nat) : ℚ) ≤ 2 ^ 24 := by exact_mod_cast hn.le
  calc ((n + 1 : Nat) : ℚ) * 2 ^ 92 ≤ 2 ^ 24 * 2 ^ 92 := mul_le_mul_of_nonneg_right h1 (by positivity)
    _ = readBound := by unfold readBound; norm_num

theorem threshold_eq (hr : RoundsUnlessOverflow r) (hH : H ≤ 20) (hL : ∀ s, |clamp lo hi s| ≤ 2 ^ 32) (hn : n + 1 < 2 ^ 24) (h : BlockBnd H lo hi n b) :
    blockThreshold r b = blockThreshold fl b ∧ (blockThreshold fl b).needsThresholding = false ∧ BlockBnd H lo hi 0 (blockThreshold fl b) := by
  unfold blockThreshold
  split
  · obtain ⟨e1, e2, e3⟩ := recThreshold_bound hr hL hH h.depth (h.tree.mono (le_readBound hn)) (x := 1) (s := b.rootScale) (by omega)
      (by rw [Nat.cast_one, one_mul]; exact h.scale.trans (le_readBound hn))
    have hp : (2 : ℚ) ^ (32 + 3 * H) ≤ 2 ^ 92 := pow_le_pow_right₀ (by norm_num) (by omega)
    dsimp only
    rw [h.lo, h.hi, e1]
    refine ⟨rfl, rfl, h.height, rfl, rfl, fun e => h.root ((recThreshold_isNil _ _ _ _).1 e), recThreshold_depth h.depth _ _ _, (fun h => by cases h),
      (e2.trans hp).trans (one_grid 0), (e3.mono hp).mono (one_grid 0), fun _ => ⟨e2.trans hp, e3.mono hp⟩⟩
  · next hb =>
    have hb : b.needsThresholding = false := by simpa using hb
    exact ⟨rfl, hb, h.fresh hb 0⟩

theorem prune_eq (hr : RoundsUnlessOverflow r) (hH : H ≤ 20) (hL : ∀ s, |clamp lo hi s| ≤ 2 ^ 32) (hn : n + 1 < 2 ^ 24) (h : BlockBnd H lo hi n b) :
    blockPrune r b = blockPrune fl b ∧ BlockBnd H lo hi 0 (blockPrune fl b) := by
  unfold blockPrune
  split
  · obtain ⟨e1, e2, h'⟩ := threshold_eq hr hH hL hn h
    dsimp only
    rw [e1, recPrune_bound hr]
    refine ⟨rfl, h'.height, h'.lo, h'.hi, fun e => h'.root ((recPrune_isNil _).1 e), recPrune_depth h'.depth, fun h => ?_, h'.scale,
      recPrune_bnd (by positivity) h'.tree, fun _ => ⟨(h'.clean e2).1, recPrune_bnd (by positivity) (h'.clean e2).2⟩⟩
    exact absurd (e2.symm.trans h) (by decide)
  · next hb =>
    exact ⟨rfl, h.fresh (by by_contra hc; exact hb (h.flags (by simpa using hc))) 0⟩

theorem pruneIf_eq (hr : RoundsUnlessOverflow r) (hH : H ≤ 20) (hL : ∀ s, |clamp lo hi s| ≤ 2 ^ 32) (hn : n + 1 < 2 ^ 24) (h : BlockBnd H lo hi n b) (a now : ℚ) :
    blockPruneIf r a now b = blockPruneIf fl a now b ∧ BlockBnd H lo hi n (blockPruneIf fl a now b) := by
  unfold blockPruneIf
  split
  · exact ⟨(prune_eq hr hH hL hn h).1, (prune_eq hr hH hL hn h).2.mono (Nat.zero_le n)⟩
  · exact ⟨rfl, h⟩

theorem empty_eq (hr : RoundsUnlessOverflow r) (b : WaveletBlock) : blockEmpty r b = blockEmpty fl b := by
  unfold blockEmpty
  rw [hr (1 / 1000) (by rw [abs_of_pos (by norm_num)]; norm_num)]

theorem value_eq (hr : RoundsUnlessOverflow r) (hH : H ≤ 20) (hn : n + 1 < 2 ^ 24) (h : BlockBnd H lo hi n b) (c : Index 3) :
    blockValue r b ⟨0, c⟩ = blockValue fl b ⟨0, c⟩ ∧ |blockValue fl b ⟨0, c⟩| ≤ 2 ^ 124 := by
  unfold blockValue
  have hl : (nodePath b.treeHeight (⟨0, c⟩ : NdtreeIndex 3)).length = H := by rw [h.height, SingleChunked.path_length]
  obtain ⟨e1, e2⟩ := getValue_bound hr (h.tree.mono (le_readBound hn)) (x := 1) (v := b.rootScale) (nodePath b.treeHeight ⟨0, c⟩) (by omega)
    (by rw [Nat.cast_one, one_mul]; exact h.scale.trans (le_readBound hn))
  refine ⟨e1, e2.trans ?_⟩
  rw [hl]
  have : ((1 + 7 * H : Nat) : ℚ) ≤ 2 ^ 8 := by exact_mod_cast (by omega : 1 + 7 * H ≤ 2 ^ 8)
  unfold readBound
  calc ((1 + 7 * H : Nat) : ℚ) * 2 ^ 116 ≤ 2 ^ 8 * 2 ^ 116 := mul_le_mul_of_nonneg_right this (by positivity)
    _ = 2 ^ 124 := by norm_num

/-- What is known about a map after `n` updates without a thresholding. -/
def MapBnd (config : HashedWaveletOctreeConfig) (n : Nat) (m : HashedWaveletOctree) : Prop :=
  m.config = config ∧ ∀ e ∈ m.blocks, BlockBnd config.treeHeight config.minLogOdds config.maxLogOdds n e.2

theorem MapBnd.alloc {config : HashedWaveletOctreeConfig} {m : HashedWaveletOctree} (hpos : 0 < config.treeHeight) (hm : MapBnd config n m) (k : Index 3) (now : ℚ) :
    MapBnd config n (m.getOrAllocateBlock k now) := by
  refine ⟨hm.1, fun e he => ?_⟩
  unfold HashedWaveletOctree.getOrAllocateBlock SpatialHash.getOrAllocateBlock at he
  dsimp only at he
  split at he
  · exact hm.2 e he
  · rcases List.mem_cons.1 he with rfl | he
    · rw [← hm.1] at hpos ⊢; exact BlockBnd.create hpos n now
    · exact hm.2 e he

theorem erase_eq {P Q : WaveletBlock → Prop} {l : SpatialHash 3 WaveletBlock} (hl : ∀ e ∈ l, P e.2) {f g : WaveletBlock → WaveletBlock × Bool}
    (hfg : ∀ b, P b → f b = g b ∧ Q (g b).1) : l.eraseBlockIf (fun _ b => f b) = l.eraseBlockIf (fun _ b => g b) ∧ ∀ e ∈ l.eraseBlockIf (fun _ b => g b), Q e.2 := by
  unfold SpatialHash.eraseBlockIf
  refine ⟨?_, fun e he => ?_⟩
  · refine List.filterMap_congr fun e he => ?_
    dsimp only
    rw [(hfg _ (hl e he)).1]
  · obtain ⟨e', he', h⟩ := List.mem_filterMap.1 he
    dsimp only at h
    split at h
    · cases h
    · injection h with h
      rw [← h]
      exact (hfg _ (hl e' he')).2

/-- The updates pending after one more operation. -/
def nextPending (n : Nat) : HashedUpdate → Nat
  | .add _ _ _ => n + 1
  | .pruneSmart _ => n
  | _ => 0

theorem step_eq (hr : RoundsUnlessOverflow r) {config : HashedWaveletOctreeConfig} (hpos : 0 < config.treeHeight) (hH : config.treeHeight ≤ 20)
    (hL : ∀ s, |clamp config.minLogOdds config.maxLogOdds s| ≤ 2 ^ 32) (hn : n + 2 < 2 ^ 24) {m : HashedWaveletOctree} (hm : MapBnd config n m)
    (o : HashedUpdate) (ho : o.Moderate) : o.runWith r m = o.runRounded m ∧ MapBnd config (nextPending n o) (o.runRounded m) := by
  have hn1 : n + 1 < 2 ^ 24 := by omega
  cases o with
  | add i u now =>
    have ha := hm.alloc hpos (indexToBlockIndex m.config.treeHeight i) now
    have hc : ∃ c, (m.getOrAllocateBlock (indexToBlockIndex m.config.treeHeight i) now).nodeToCellIndex ⟨0, i⟩ = ⟨0, c⟩ := ⟨_, rfl⟩
    obtain ⟨c, hc⟩ := hc
    unfold HashedUpdate.runWith HashedUpdate.runRounded hashedAdd
    dsimp only
    rw [hc]
    generalize m.getOrAllocateBlock (indexToBlockIndex m.config.treeHeight i) now = m1 at ha
    unfold SpatialHash.modifyBlock
    refine ⟨?_, ha.1, fun e he => ?_⟩
    · congr 1
      refine List.map_congr_left fun e he => ?_
      dsimp only
      rw [(add_eq hr hn (ha.2 e he) c ho now).1]
    · obtain ⟨e', he', rfl⟩ := List.mem_map.1 he
      split
      · exact (add_eq hr hn (ha.2 e' he') c ho now).2
      · exact (ha.2 e' he').mono (Nat.le_succ n)
  | threshold =>
    unfold HashedUpdate.runWith HashedUpdate.runRounded hashedThreshold SpatialHash.mapBlocks
    dsimp only
    refine ⟨?_, hm.1, fun e he => ?_⟩
    · congr 1
      refine List.map_congr_left fun e he => ?_
      rw [(threshold_eq hr hH hL hn1 (hm.2 e he)).1]
    · obtain ⟨e', he', rfl⟩ := List.mem_map.1 he
      exact (threshold_eq hr hH hL hn1 (hm.2 e' he')).2.2
  | prune =>
    obtain ⟨h1, h2⟩ := erase_eq (Q := BlockBnd config.treeHeight config.minLogOdds config.maxLogOdds 0) hm.2
      (f := fun b => (blockPrune r b, blockEmpty r (blockPrune r b))) (g := fun b => (blockPrune fl b, blockEmpty fl (blockPrune fl b)))
      fun b hb => by
        obtain ⟨e1, e2⟩ := prune_eq hr hH hL hn1 hb
        exact ⟨by rw [e1, empty_eq hr], e2⟩
    unfold HashedUpdate.runWith HashedUpdate.runRounded hashedPrune
    dsimp only
    rw [h1]
    exact ⟨rfl, hm.1, h2⟩
  | pruneSmart now =>
    obtain ⟨h1, h2⟩ := erase_eq (Q := BlockBnd config.treeHeight config.minLogOdds config.maxLogOdds n) hm.2
      (f := fun b => (blockPruneIf r m.config.onlyPruneBlocksIfUnusedFor now b, blockEmpty r (blockPruneIf r m.config.onlyPruneBlocksIfUnusedFor now b)))
      (g := fun b => (blockPruneIf fl m.config.onlyPruneBlocksIfUnusedFor now b, blockEmpty fl (blockPruneIf fl m.config.onlyPruneBlocksIfUnusedFor now b)))
      fun b hb => by
        obtain ⟨e1, e2⟩ := pruneIf_eq hr hH hL hn1 hb m.config.onlyPruneBlocksIfUnusedFor now
        exact ⟨by rw [e1, empty_eq hr], e2⟩
    unfold HashedUpdate.runWith HashedUpdate.runRounded hashedPruneSmart
    dsimp only
    rw [h1]
    exact ⟨rfl, hm.1, h2⟩
  | clear => exact ⟨rfl, hm.1, fun e he => by cases he⟩

theorem pending_snoc (ops : List HashedUpdate) (o : HashedUpdate) : HashedUpdate.pending (ops ++ [o]) = nextPending (HashedUpdate.pending ops) o := by
  unfold HashedUpdate.pending
  rw [List.foldl_append]
  cases o <;> rfl

theorem run_eq (hr : RoundsUnlessOverflow r) {config : HashedWaveletOctreeConfig} (hpos : 0 < config.treeHeight) (hH : config.treeHeight ≤ 20)
    (hL : ∀ s, |clamp config.minLogOdds config.maxLogOdds s| ≤ 2 ^ 32) (ops : List HashedUpdate) (hops : ∀ o ∈ ops, o.Moderate)
    (hp : ∀ k, HashedUpdate.pending (ops.take k) + 2 < 2 ^ 24) :
    ops.foldl (HashedUpdate.runWith r) (.create config) = ops.foldl HashedUpdate.runRounded (.create config) ∧
      MapBnd config (HashedUpdate.pending ops) (ops.foldl HashedUpdate.runRounded (.create config)) := by
  induction ops using List.reverseRecOn with
  | nil => exact ⟨rfl, rfl, fun e he => by cases he⟩
  | append_singleton ops o ih =>
    obtain ⟨h1, h2⟩ := ih (fun o ho => hops o (List.mem_append_left _ ho)) fun k => by
      rcases le_total k ops.length with hk | hk
      · have := hp k; rwa [List.take_append_of_le_length hk] at this
      · have := hp ops.length; rw [List.take_left'  rfl] at this; rwa [List.take_of_length_le hk]
    rw [List.foldl_append, List.foldl_append, pending_snoc, h1]
    have hn := hp ops.length
    rw [List.take_left' rfl] at hn
    exact step_eq hr hpos hH hL hn h2 o (hops o (by simp))

end SingleOverflow

/-! ## C80 -/

open SingleOverflow in
/-- C80: no overflow. Updates and the configured bounds do not exceed `2 ^ 32`, the tree is no higher than 20 levels, and the map is thresholded, pruned or cleared at least once in 16
million cell updates. Then with every rounding that is correct up to the end of the single precision range, and arbitrary beyond, each history leads to exactly the same map, and each cell
reads exactly the same value, as with the unlimited rounding of the theorems above. This value is itself far within the range. -/
theorem C80_no_overflow (config : HashedWaveletOctreeConfig) (hc : config.isValid = true) (hH : config.treeHeight ≤ 20) (hlo : |config.minLogOdds| ≤ 2 ^ 32)
    (hhi : |config.maxLogOdds| ≤ 2 ^ 32) (ops : List HashedUpdate) (hops : ∀ o ∈ ops, o.Moderate) (hp : ∀ k, HashedUpdate.pending (ops.take k) ≤ 16000000)
    (r : ℚ → ℚ) (hr : RoundsUnlessOverflow r) :
    ops.foldl (HashedUpdate.runWith r) (.create config) = ops.foldl HashedUpdate.runRounded (.create config) ∧
    ∀ j, Rounded.hashedValue r (ops.foldl (HashedUpdate.runWith r) (.create config)) j
        = Rounded.hashedValue fl (ops.foldl HashedUpdate.runRounded (.create config)) j ∧
      |Rounded.hashedValue fl (ops.foldl HashedUpdate.runRounded (.create config)) j| ≤ 2 ^ 124 := by
  have hL : ∀ s, |clamp config.minLogOdds config.maxLogOdds s| ≤ 2 ^ 32 := by
    intro s
    obtain ⟨h1, h2⟩ := abs_le.1 hlo
    obtain ⟨h3, h4⟩ := abs_le.1 hhi
    unfold clamp
    rw [abs_le]
    split_ifs <;> constructor <;> linarith
  have hI := HashedWaveletOctree.Inv.create hc (by omega)
  obtain ⟨h1, h2, h3⟩ := run_eq hr (config := config) hI.pos hH hL ops hops fun k => by have := hp k; omega
  refine ⟨h1, fun j => ?_⟩
  rw [h1]
  have hn : HashedUpdate.pending ops + 1 < 2 ^ 24 := by
    have := hp ops.length
    rw [List.take_length] at this
    omega
  generalize ops.foldl HashedUpdate.runRounded (.create config) = m at h2 h3
  unfold Rounded.hashedValue
  cases hb : m.blocks.getBlock (indexToBlockIndex m.config.treeHeight j) with
  | none => exact ⟨rfl, by rw [abs_zero]; positivity⟩
  | some b => exact value_eq hr hH hn (h3 _ (SpatialHash.mem_of_getBlock hb)) _

/-- A rounding that overflows: numbers that are too large are lost. -/
def overflowing (x : ℚ) : ℚ := if |x| < 2 ^ 128 - 2 ^ 103 then fl x else 0

theorem overflowing_rounds : RoundsUnlessOverflow overflowing := fun _ hx => if_pos hx

/-- The hypotheses of `C80_no_overflow` hold for a history with updates, a thresholding and a pruning, and the cell's value is not zero. -/
example :
    let config : HashedWaveletOctreeConfig := { minCellWidth := 1, minLogOdds := -2, maxLogOdds := 4, treeHeight := 2, onlyPruneBlocksIfUnusedFor := 5 }
    let ops : List HashedUpdate := [.add ![0, 0, 0] (3 / 2) 0, .add ![1, 0, 0] 7 1, .threshold, .add ![0, 0, 0] (1 / 2) 2, .pruneSmart 3, .prune]
    config.isValid = true ∧ (∀ o ∈ ops, o.Moderate) ∧ (∀ k, HashedUpdate.pending (ops.take k) ≤ 16000000) ∧
      Rounded.hashedValue overflowing (ops.foldl (HashedUpdate.runWith overflowing) (.create config)) ![0, 0, 0] = 2 := by
  refine ⟨by decide +kernel, ?_, fun k => ?_, by decide +kernel⟩
  · intro o ho
    simp only [List.mem_cons, List.not_mem_nil, or_false] at ho
    rcases ho with rfl | rfl | rfl | rfl | rfl | rfl <;> simp only [HashedUpdate.Moderate] <;> norm_num [abs_le]
  · rcases k with _ | _ | _ | _ | _ | _ | k <;> simp [HashedUpdate.pending]

/-- The bound on the updates is needed: two updates of `2 ^ 127` are too large together, and the value of the cell is lost with the rounding that overflows. -/
example :
    let config : HashedWaveletOctreeConfig := { minCellWidth := 1, minLogOdds := -2, maxLogOdds := 4, treeHeight := 2, onlyPruneBlocksIfUnusedFor := 5 }
    let ops : List HashedUpdate := [.add ![0, 0, 0] (2 ^ 127) 0, .add ![0, 0, 0] (2 ^ 127) 1]
    Rounded.hashedValue overflowing (ops.foldl (HashedUpdate.runWith overflowing) (.create config)) ![0, 0, 0]
      ≠ Rounded.hashedValue fl (ops.foldl HashedUpdate.runRounded (.create config)) ![0, 0, 0] := by
  decide +kernel

/-- C80: no overflow in the chunked wavelet octree, under the same conditions: with every rounding that is correct up to the end of the single precision range and that does not change
what it has rounded itself, each history succeeds, and each cell reads exactly the value that it has with the unlimited rounding, which is far within the range. -/
theorem C80_chunked_no_overflow (config : HashedWaveletOctreeConfig) (hc : config.isValidChunked = true) (hlf : IsFloat config.minLogOdds) (hhf : IsFloat config.maxLogOdds)
    (hlo : |config.minLogOdds| ≤ 2 ^ 32) (hhi : |config.maxLogOdds| ≤ 2 ^ 32) (ops : List HashedUpdate) (hops : ∀ o ∈ ops, o.Moderate)
    (hp : ∀ k, HashedUpdate.pending (ops.take k) ≤ 16000000) (r : ℚ → ℚ) [IsRounding r] (hr : RoundsUnlessOverflow r) :
    ∃ c c', (ops.map HashedUpdate.op).foldlM (HashedWaveletOp.roundedChunked r) (HashedChunkedWaveletOctree.create config) = some c ∧
      (ops.map HashedUpdate.op).foldlM HashedWaveletOp.singleChunked (HashedChunkedWaveletOctree.create config) = some c' ∧ c.blocks.keys = c'.blocks.keys ∧
      ∀ j, Rounded.Chunked.hashedValue r c j = Rounded.Chunked.hashedValue fl c' j ∧ |Rounded.Chunked.hashedValue fl c' j| ≤ 2 ^ 124 := by
  have hfix : ∀ x : ℚ, IsFloat x → |x| ≤ 2 ^ 32 → r x = x := fun x hf hx => by
    rw [hr x (lt_of_le_of_lt hx (by norm_num)), fl_of_isFloat hf]
  obtain ⟨c, e, hv, -, hk⟩ := C19_any_rounding r config hc (hfix _ hlf hlo) (hfix _ hhf hhi) (ops.map HashedUpdate.op)
  obtain ⟨c', e', hv', -, hk'⟩ := C19_single_precision config hc hlf hhf (ops.map HashedUpdate.op)
  simp only [HashedWaveletOctreeConfig.isValidChunked, Bool.and_eq_true, decide_eq_true_eq] at hc
  obtain ⟨h1, h2⟩ := C80_no_overflow config hc.1 (by have := hc.2; unfold maxSupportedTreeHeight at this; omega) hlo hhi ops hops hp r hr
  have hrun : (ops.map HashedUpdate.op).foldl HashedWaveletOp.single (HashedWaveletOctree.create config) = ops.foldl HashedUpdate.runRounded (HashedWaveletOctree.create config) := by
    rw [List.foldl_map]
    congr 1
    funext m o
    cases o <;> rfl
  have hrun' : (ops.map HashedUpdate.op).foldl (HashedWaveletOp.rounded r) (HashedWaveletOctree.create config) = ops.foldl (HashedUpdate.runWith r) (HashedWaveletOctree.create config) := by
    rw [List.foldl_map]
    congr 1
    funext m o
    cases o <;> rfl
  refine ⟨c, c', e, e', by rw [hk, hk', hrun, hrun', h1], fun j => ?_⟩
  rw [hv, hv', hrun, hrun']
  exact h2 j

/-- The rounding of a processor that replaces numbers that are too large by the largest one meets the assumptions. -/
def saturating (x : ℚ) : ℚ := if |x| < 2 ^ 128 - 2 ^ 103 then fl x else if 0 ≤ x then 2 ^ 128 - 2 ^ 104 else -(2 ^ 128 - 2 ^ 104)

theorem saturating_rounds : RoundsUnlessOverflow saturating := fun _ hx => if_pos hx

theorem largest_isFloat : IsFloat ((2 : ℚ) ^ 128 - 2 ^ 104) := ⟨2 ^ 24 - 1, 104, by norm_num, by norm_num⟩

theorem fl_le_largest {x : ℚ} (h : |x| < 2 ^ 128 - 2 ^ 103) : |fl x| ≤ 2 ^ 128 - 2 ^ 104 := by
  have key : ∀ y : ℚ, 0 ≤ y → y < 2 ^ 128 - 2 ^ 103 → |fl y| ≤ 2 ^ 128 - 2 ^ 104 := by
    intro y h0 hy
    rcases le_or_gt y (2 ^ 128 - 2 ^ 104) with hc | hc
    · exact fl_bound largest_isFloat (by rw [abs_of_nonneg h0]; exact hc)
    · have e : fl y = ((2 ^ 24 - 1 : Int) : ℚ) * 2 ^ (104 : Int) := by
        have hp : (0 : ℚ) ≤ y / 2 ^ (104 : Int) := div_nonneg h0 (by positivity)
        have hz : (2 : ℚ) ^ (104 : Int) = 2 ^ 104 := by norm_num
        apply fl_eq
        · rw [abs_of_nonneg hp, hz, le_div_iff₀ (by positivity)]; norm_num at *; linarith
        · rw [abs_of_nonneg hp, hz, div_lt_iff₀ (by positivity)]; norm_num at *; linarith
        · have e : y / 2 ^ (104 : Int) - ((2 ^ 24 - 1 : Int) : ℚ) = (y - (2 ^ 128 - 2 ^ 104)) / 2 ^ 104 := by
            rw [hz]; push_cast; field_simp; ring
          rw [e, abs_of_pos (div_pos (by linarith) (by positivity)), div_lt_iff₀ (by positivity)]
          norm_num at *; linarith
      rw [e]
      push_cast
      rw [abs_of_pos (by norm_num)]
      norm_num
  rcases le_total 0 x with h0 | h0
  · rw [abs_of_nonneg h0] at h; exact key x h0 h
  · rw [abs_of_nonpos h0] at h
    have := key (-x) (by linarith) h
    rwa [fl_neg, abs_neg] at this

instance : IsRounding saturating where
  zero := by decide +kernel
  idem x := by
    have key : ∀ y, IsFloat y → |y| ≤ 2 ^ 128 - 2 ^ 104 → saturating y = y := fun y hy hb => by
      unfold saturating; rw [if_pos (lt_of_le_of_lt hb (by norm_num)), fl_of_isFloat hy]
    apply key
    · unfold saturating
      split_ifs
      · exact isFloat_fl _
      · exact largest_isFloat
      · exact largest_isFloat.neg
    · unfold saturating
      split_ifs with h
      · exact fl_le_largest h
      · rw [abs_of_pos (by norm_num)]
      · rw [abs_neg, abs_of_pos (by norm_num)]
  nonneg x h := by
    unfold saturating
    split_ifs
    · exact IsRounding.nonneg x h
    · norm_num

/-- So does rounding with subnormal numbers, for which chunked and plain octrees also agree. -/
instance : IsRounding ieeeRound where
  zero := ieeeRound_isIeee.zero
  idem x := by
    by_cases h : |x| < 1 / 2 ^ 126
    · have e : ieeeRound x = roundTiesToEven (x * 2 ^ 149) / 2 ^ 149 := by unfold ieeeRound; rw [if_pos h]
      rcases (ieeeRound_isIeee.small x h).lt_or_eq with hl | hl
      · exact (ieeeRound_subnormal _ hl).2 ⟨_, e⟩
      · have hf : IsFloat (ieeeRound x) := by
          have h1 : IsFloat ((1 : ℚ) / 2 ^ 126) := ⟨1, -126, by norm_num, by norm_num⟩
          rcases abs_choice (ieeeRound x) with a | a <;> rw [a] at hl
          · rw [hl]; exact h1
          · rw [← neg_neg (ieeeRound x), hl]; exact h1.neg
        unfold ieeeRound at hl hf ⊢
        rw [if_neg (by rw [hl]; exact lt_irrefl _)]
        exact fl_of_isFloat hf
    · have e : ieeeRound x = fl x := by unfold ieeeRound; rw [if_neg h]
      have hb : ¬|fl x| < 1 / 2 ^ 126 := by
        have h1 : IsFloat ((1 : ℚ) / 2 ^ 126) := ⟨1, -126, by norm_num, by norm_num⟩
        rw [not_lt] at h ⊢
        rcases le_abs.1 h with a | a
        · have := fl_mono a
          rw [fl_of_isFloat h1] at this
          exact this.trans (le_abs_self _)
        · have a' : x ≤ -(1 / 2 ^ 126) := by linarith
          have := fl_mono a'
          rw [fl_of_isFloat h1.neg] at this
          exact le_trans (by linarith) (neg_le_abs _)
      rw [e]
      unfold ieeeRound
      rw [if_neg hb]
      exact fl_of_isFloat (isFloat_fl x)
  nonneg x h := by
    unfold ieeeRound
    split_ifs
    · have h0 : (((0 : Int)) : ℚ) ≤ x * 2 ^ 149 := by push_cast; positivity
      have := roundTiesToEven_mono h0
      rw [roundTiesToEven_int] at this
      have : (0 : ℚ) ≤ (roundTiesToEven (x * 2 ^ 149) : ℚ) := by exact_mod_cast this
      positivity
    · exact IsRounding.nonneg x h

/-- The hypotheses of `C80_chunked_no_overflow` are met by a history in a map whose blocks have two levels of chunks. -/
example : let config : HashedWaveletOctreeConfig := ⟨1 / 10, -2, 4, 4, 5⟩
    let ops : List HashedUpdate := [.add ![0, 0, 0] 3 1, .add ![17, 0, 0] 7 1, .threshold, .prune]
    config.isValidChunked = true ∧ IsFloat config.minLogOdds ∧ IsFloat config.maxLogOdds ∧ (∀ o ∈ ops, o.Moderate) ∧ (∀ k, HashedUpdate.pending (ops.take k) ≤ 16000000) ∧
      (((ops.map HashedUpdate.op).foldlM (HashedWaveletOp.roundedChunked saturating) (HashedChunkedWaveletOctree.create config)).map
        fun c => Rounded.Chunked.hashedValue saturating c ![17, 0, 0]) = some 4 := by
  refine ⟨by decide +kernel, ⟨-2, 0, by norm_num, by norm_num⟩, ⟨4, 0, by norm_num, by norm_num⟩, ?_, fun k => ?_, by decide +kernel⟩
  · intro o ho
    simp only [List.mem_cons, List.not_mem_nil, or_false] at ho
    rcases ho with rfl | rfl | rfl | rfl <;> simp only [HashedUpdate.Moderate] <;> norm_num [abs_le]
  · rcases k with _ | _ | _ | _ | k <;> simp [HashedUpdate.pending]

theorem HashedBlocksOp.runWith_value (r : ℚ → ℚ) (m : HashedBlocks) (hw : m.Wf) (o : HashedBlocksOp) (j : Index 3) :
    (o.runWith r m).Wf ∧ (o.runWith r m).config = m.config ∧ (o.runWith r m).hash.defaultValue = m.hash.defaultValue ∧
      (o.runWith r m).getCellValue j = match o with
        | .set i v => if j = i then v else m.getCellValue j
        | .add i u => if j = i then clamp m.config.minLogOdds m.config.maxLogOdds (r (m.getCellValue j + u)) else m.getCellValue j
        | .clear => m.hash.defaultValue
        | _ => m.getCellValue j := by
  cases o with
  | add i u =>
    refine ⟨DenseBlockHash.Wf.run (m := m.hash) hw (.update i _), rfl, rfl, ?_⟩
    have := (DenseBlockHash.run_spec (by decide) m.hash
      (.update i fun v => clamp m.config.minLogOdds m.config.maxLogOdds (r (v + u))) j).1
    simp only [BlockHashOp.spec] at this
    refine Eq.trans this ?_
    by_cases h : j = i
    · subst h; rw [if_pos rfl]; exact (if_pos rfl).symm
    · rw [if_neg h]; exact (if_neg h).symm
  | set i v =>
    exact ⟨HashedBlocks.Wf.run hw (.set i v), rfl, rfl, (DenseBlockHash.run_spec (by decide) m.hash (.update i fun _ => v) j).1⟩
  | threshold => exact ⟨hw, rfl, rfl, rfl⟩
  | prune => exact ⟨HashedBlocks.Wf.run hw .prune, rfl, rfl, HashedBlocks.getCellValue_prune hw j⟩
  | clear => exact ⟨HashedBlocks.Wf.run hw .clear, rfl, rfl, rfl⟩

/-- C80: no overflow in hashed blocks, however long the history and without any thresholding: values up to `M` and updates up to `U` whose sum is within the range suffice. -/
theorem C80_hashed_blocks_no_overflow (config : MapBaseConfig) (hc : config.isValid = true) (dv M U : ℚ) (hdv : |dv| ≤ M)
    (hlo : |config.minLogOdds| ≤ M) (hhi : |config.maxLogOdds| ≤ M) (hMU : M + U ≤ 2 ^ 127) (ops : List HashedBlocksOp) (hops : ∀ o ∈ ops, o.Within M U)
    (r : ℚ → ℚ) (hr : RoundsUnlessOverflow r) (j : Index 3) :
    (ops.foldl (HashedBlocksOp.runWith r) (.create config dv)).getCellValue j = (ops.foldl HashedBlocksOp.runRounded (.create config dv)).getCellValue j ∧
      |(ops.foldl HashedBlocksOp.runRounded (.create config dv)).getCellValue j| ≤ M := by
  have hlt : config.minLogOdds ≤ config.maxLogOdds := by
    simp only [MapBaseConfig.isValid, Bool.and_eq_true, decide_eq_true_eq] at hc; exact hc.2.le
  suffices key : ∀ (ops : List HashedBlocksOp), (∀ o ∈ ops, o.Within M U) →
      let R := ops.foldl (HashedBlocksOp.runWith r) (HashedBlocks.create config dv)
      let F := ops.foldl HashedBlocksOp.runRounded (HashedBlocks.create config dv)
      R.Wf ∧ F.Wf ∧ R.config = config ∧ F.config = config ∧ R.hash.defaultValue = dv ∧ F.hash.defaultValue = dv ∧
        R.getCellValue j = F.getCellValue j ∧ |F.getCellValue j| ≤ M from (key ops hops).2.2.2.2.2.2
  intro ops
  induction ops using List.reverseRecOn with
  | nil => exact fun _ => ⟨List.nodup_nil, List.nodup_nil, rfl, rfl, rfl, rfl, rfl, hdv⟩
  | append_singleton ops o ih =>
    intro hops
    obtain ⟨wR, wF, cR, cF, dR, dF, he, hv⟩ := ih fun o' h => hops o' (by simp [h])
    have ho := hops o (by simp)
    simp only [List.foldl_append, List.foldl_cons, List.foldl_nil]
    generalize ops.foldl (HashedBlocksOp.runWith r) (HashedBlocks.create config dv) = R at wR cR dR he ⊢
    generalize ops.foldl HashedBlocksOp.runRounded (HashedBlocks.create config dv) = F at wF cF dF hv he ⊢
    obtain ⟨wR', cR', dR', vR⟩ := HashedBlocksOp.runWith_value r R wR o j
    obtain ⟨wF', cF', dF', vF⟩ := runRounded_value F wF o j
    refine ⟨wR', wF', cR'.trans cR, cF'.trans cF, dR'.trans dR, dF'.trans dF, ?_⟩
    rw [vR, vF]
    cases o with
    | set i v =>
      by_cases h : j = i
      · simp only [if_pos h]; exact ⟨trivial, ho⟩
      · simp only [if_neg h]; exact ⟨he, hv⟩
    | add i u =>
      by_cases h : j = i
      · simp only [if_pos h]
        have hs : |F.getCellValue j + u| < 2 ^ 128 - 2 ^ 103 := by
          refine lt_of_le_of_lt ((abs_add_le _ _).trans ((add_le_add hv ho).trans hMU)) (by norm_num)
        rw [he, hr _ hs, cR, cF]
        exact ⟨rfl, clamp_within hlt hlo hhi _⟩
      · simp only [if_neg h]; exact ⟨he, hv⟩
    | threshold => exact ⟨he, hv⟩
    | prune => exact ⟨he, hv⟩
    | clear => simp only [dR, dF]; exact ⟨trivial, hdv⟩

/-- The hypotheses are met by a history of hashed blocks. -/
example : let ops : List HashedBlocksOp := [.add ![0, 0, 0] 3, .set ![1, 0, 0] (-1), .add ![0, 0, 0] 3, .prune]
    (∀ o ∈ ops, o.Within 4 100) ∧ (ops.foldl (HashedBlocksOp.runWith saturating) (.create ⟨1, -2, 4⟩ 0)).getCellValue ![0, 0, 0] = 4 := by
  refine ⟨?_, by decide +kernel⟩
  intro o ho
  simp only [List.mem_cons, List.not_mem_nil, or_false] at ho
  rcases ho with rfl | rfl | rfl | rfl <;> simp only [HashedBlocksOp.Within] <;> norm_num [abs_le]

end Wavemap
