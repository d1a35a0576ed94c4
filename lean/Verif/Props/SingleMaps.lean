import Verif.Lemmas.SingleMaps
import Verif.Lemmas.SingleThreshold
import Verif.Props.HashedBlocks
import Verif.Props.WaveletOctree
import Verif.Props.HashedWavelet
/-!
# C80: log-odds in single precision
-/
namespace Wavemap
open NTree

/-! ## Specification -/

/-- What was added to a cell: the sum of the updates of all nodes that contain it. -/
def added (ops : List (NdtreeIndex 3 × ℚ)) (i : Index 3) : ℚ := ((ops.filter fun o => decide (NodeRegion o.1 i)).map Prod.snd).sum

/-- How far a cell of a wavelet octree of height `H` can drift from the exact sum by `N` updates, if no exact sum ever exceeds `A`. -/
def drift (A : ℚ) (H N : Nat) : ℚ := A * ((1 + (7 * H + 1) / 2 ^ 24) ^ N * (1 + 57 * H / 2 ^ 24) - 1)

/-! ## Helpers -/

theorem cells_bound {H : Nat} (hH : H ≤ 20) {t : WTree} {s A : ℚ}
    (h : ∀ j : Index 3, (∀ k, 0 ≤ j k ∧ j k < 2 ^ H) → |t.getValue s (nodePath H ⟨0, j⟩)| ≤ A) (q : List (Fin (2 ^ 3))) (hq : q.length ≤ H) :
    |t.getValue s q| ≤ A := by
  generalize hn : H - q.length = n
  induction n generalizing q with
  | zero =>
    have hin := indexOfPath_inTree (d := 3) H q hq
    have hh := indexOfPath_height (d := 3) H q
    have e : indexOfPath H q = (⟨0, (indexOfPath H q).position⟩ : NdtreeIndex 3) := by
      ext k
      · rw [hh]; simp only; omega
      · rfl
    have hp := nodePath_indexOfPath (d := 3) (by decide) hH q hq
    rw [← hp, e]
    apply h
    intro k
    have := hin.2.2 k
    rw [e] at this
    simpa using this
  | succ n ih =>
    have hm := WTree.getValue_mean t s q
    have hc : ∀ c, |t.getValue s (q ++ [c])| ≤ A := fun c => ih (q ++ [c]) (by simp; omega) (by simp; omega)
    have h8 : ∀ f : Fin (2 ^ 3) → ℚ, (∀ c, |f c| ≤ A) → |sum8 f| ≤ 8 * A := by
      intro f hf
      have hl : ∀ l : List (Fin (2 ^ 3)), |(l.map f).sum| ≤ l.length * A := by
        intro l
        induction l with
        | nil => simp
        | cons c l ih =>
          rw [List.map_cons, List.sum_cons, List.length_cons]
          refine (abs_add_le _ _).trans ((add_le_add (hf c) ih).trans ?_)
          push_cast; linarith
      have := hl (List.finRange (2 ^ 3))
      rw [List.length_finRange] at this
      norm_num at this ⊢
      exact this
    have := h8 _ hc
    rw [hm, abs_mul, abs_of_pos (by norm_num : (0 : ℚ) < 8)] at this
    linarith

theorem added_concat (ops : List (NdtreeIndex 3 × ℚ)) (o : NdtreeIndex 3 × ℚ) (i : Index 3) :
    added (ops ++ [o]) i = added ops i + if NodeRegion o.1 i then o.2 else 0 := by
  unfold added
  rw [List.filter_append, List.map_append, List.sum_append]
  congr 1
  by_cases h : NodeRegion o.1 i <;> simp [h]

theorem drift_step (A : ℚ) (H N : Nat) :
    A * ((1 + (7 * H + 1) / 2 ^ 24) ^ N - 1) + (7 * H + 1) * (A + A * ((1 + (7 * H + 1) / 2 ^ 24) ^ N - 1)) * ulp1
      = A * ((1 + (7 * H + 1) / 2 ^ 24) ^ (N + 1) - 1) := by
  unfold ulp1; rw [pow_succ]; ring

/-- A read from a map that is close to an exact map. -/
theorem Close.read {n : Nat} (hn : n ≤ 1000) {t tE : WTree} {s sE A : ℚ} {N : Nat} (hA : 0 ≤ A)
    (h : Close n t s tE sE (A * ((1 + (7 * n + 1) / 2 ^ 24) ^ N - 1)))
    (hb : ∀ q : List (Fin (2 ^ 3)), q.length ≤ n → |tE.getValue sE q| ≤ A) (q : List (Fin (2 ^ 3))) (hq : q.length ≤ n) :
    |Rounded.getValue fl t s q - tE.getValue sE q| ≤ drift A n N := by
  set ε := A * ((1 + (7 * n + 1) / 2 ^ 24) ^ N - 1) with hε
  have hε0 : 0 ≤ ε := (abs_nonneg _).trans (h.values [] (by simp))
  have hB : ∀ q : List (Fin (2 ^ 3)), q.length ≤ n → |t.getValue s q| ≤ A + ε := by
    intro q hq
    have h1 := h.values q hq
    have h2 := hb q hq
    rw [abs_le] at h1 h2 ⊢
    constructor <;> linarith [h1.1, h1.2, h2.1, h2.2]
  have h1 := getValue_fl t h.floats s (A + ε) (by linarith) n hn hB q hq
  have h2 := h.values q hq
  have h3 : 57 * (q.length : ℚ) * (A + ε) * ulp1 ≤ 57 * n * (A + ε) * ulp1 := by
    have : (q.length : ℚ) ≤ n := by exact_mod_cast hq
    apply mul_le_mul_of_nonneg_right _ ulp1_pos.le
    apply mul_le_mul_of_nonneg_right _ (by linarith)
    linarith
  have h4 : drift A n N = ε + 57 * n * (A + ε) * ulp1 := by rw [hε]; unfold drift ulp1; ring
  rw [h4]
  rw [abs_le] at h1 h2 ⊢
  constructor <;> linarith [h1.1, h1.2, h2.1, h2.2]

theorem close_create (n : Nat) : Close n (.leaf zeroDetails) 0 (.leaf zeroDetails) 0 0 :=
  ⟨by simp, by simp, floatTree_zero, isFloat_zero, fun q _ => by simp⟩

/-! ## Wavelet octree -/

/-- C80 (wavelet octree): after any history of updates of cells or coarser nodes, the value of a cell in single precision differs from the sum of its updates by at
most `drift`. The updates are single precision numbers, and no sum exceeds `A` during the history. -/
theorem C80_wavelet_octree (config : WaveletOctreeConfig) (hH : config.treeHeight ≤ 20) (hpos : 0 < config.treeHeight)
    (ops : List (NdtreeIndex 3 × ℚ)) (hops : ∀ o ∈ ops, NodeInMap config.treeHeight o.1 ∧ IsFloat o.2)
    (A : ℚ) (hA : ∀ k i, CellInMap config.treeHeight i → |added (ops.take k) i| ≤ A) (i : Index 3) (hi : CellInMap config.treeHeight i) :
    |Rounded.getCellValue fl (ops.foldl (fun m o => Rounded.addToNodeValue fl m o.1 o.2) (WaveletOctree.create config)) i - added ops i|
      ≤ drift A config.treeHeight ops.length := by
  have hA0 : 0 ≤ A := (abs_nonneg _).trans (hA 0 i hi)
  -- the exact map
  have inv : ∀ ops : List (NdtreeIndex 3 × ℚ), (∀ o ∈ ops, NodeInMap config.treeHeight o.1 ∧ IsFloat o.2) →
      (∀ k i, CellInMap config.treeHeight i → |added (ops.take k) i| ≤ A) →
      let F := ops.foldl (fun m o => Rounded.addToNodeValue fl m o.1 o.2) (WaveletOctree.create config)
      let E := ops.foldl (fun m o => m.addToNodeValue o.1 o.2) (WaveletOctree.create config)
      F.config = config ∧ E.config = config ∧ E.Rep (added ops) ∧
        Close config.treeHeight F.root F.rootScale E.root E.rootScale (A * ((1 + (7 * config.treeHeight + 1) / 2 ^ 24) ^ ops.length - 1)) ∧
        ∀ q : List (Fin (2 ^ 3)), q.length ≤ config.treeHeight → |E.root.getValue E.rootScale q| ≤ A := by
    intro ops
    induction ops using List.reverseRecOn with
    | nil =>
      intro _ _
      refine ⟨rfl, rfl, WaveletOctree.create_rep config, ?_, ?_⟩
      · show Close config.treeHeight (.leaf zeroDetails) 0 (.leaf zeroDetails) 0 _
        have := close_create config.treeHeight
        simpa using this
      · intro q hq
        have hr := WaveletOctree.create_rep config
        apply cells_bound hH (s := 0) (t := .leaf zeroDetails) _ q hq
        intro j hj
        rw [show WTree.getValue (.leaf zeroDetails) 0 (nodePath config.treeHeight ⟨0, j⟩) = 0 from hr.2 j hj, abs_zero]
        exact hA0
    | append_singleton ops o ih =>
      intro hops hA
      obtain ⟨cF, cE, hrep, hcl, _⟩ := ih (fun o' h => hops o' (by simp [h])) (fun k i hi => by
        rcases Nat.le_total k ops.length with hk | hk
        · have := hA k i hi
          rwa [List.take_append_of_le_length hk] at this
        · have := hA ops.length i hi
          rw [List.take_append_of_le_length (Nat.le_refl _), List.take_length] at this
          rwa [List.take_of_length_le hk])
      obtain ⟨hn, hu⟩ := hops o (by simp)
      simp only [List.foldl_append, List.foldl_cons, List.foldl_nil]
      generalize ops.foldl (fun m o => Rounded.addToNodeValue fl m o.1 o.2) (WaveletOctree.create config) = F at cF hcl ⊢
      generalize ops.foldl (fun m o => m.addToNodeValue o.1 o.2) (WaveletOctree.create config) = E at cE hrep hcl ⊢
      have hrep' : (E.addToNodeValue o.1 o.2).Rep (added (ops ++ [o])) := by
        have := WaveletOctree.Rep.run (by rw [cE]; exact hH) hrep (.add o.1 o.2) (by rw [cE]; exact hn)
        have e : added (ops ++ [o]) = WaveletOp.spec E.config.treeHeight (added ops) (.add o.1 o.2) := by
          funext j
          rw [added_concat]
          simp only [WaveletOp.spec]
          split <;> simp
        rw [e]; exact this
      have hbound : ∀ q : List (Fin (2 ^ 3)), q.length ≤ config.treeHeight →
          |(E.addToNodeValue o.1 o.2).root.getValue (E.addToNodeValue o.1 o.2).rootScale q| ≤ A := by
        apply cells_bound hH
        intro j hj
        have := hrep'.2 j (by rw [show (E.addToNodeValue o.1 o.2).config = E.config from rfl, cE]; exact hj)
        rw [show (E.addToNodeValue o.1 o.2).config = E.config from rfl, cE] at this
        rw [this]
        have h1 := hA (ops ++ [o]).length (fun k => j k - 2 ^ (config.treeHeight - 1)) (fun k => by
          have := hj k
          have e := two_pow_double (a := config.treeHeight) (b := config.treeHeight - 1) (by omega)
          dsimp only
          constructor <;> omega)
        rwa [List.take_length] at h1
      refine ⟨cF, cE, hrep', ?_, hbound⟩
      have hpath : F.path o.1 = E.path o.1 := by
        unfold WaveletOctree.path WaveletOctree.toInternal WaveletOctree.rootIndexOffset
        rw [cF, cE]
      have := hcl.add (E.path o.1) o.2 hu A hA0 hbound
      rw [List.length_append, List.length_singleton, ← drift_step]
      unfold Rounded.addToNodeValue WaveletOctree.addToNodeValue
      rw [hpath]
      exact this
  obtain ⟨cF, cE, hrep, hcl, hb⟩ := inv ops hops hA
  generalize ops.foldl (fun m o => Rounded.addToNodeValue fl m o.1 o.2) (WaveletOctree.create config) = F at cF hcl ⊢
  generalize ops.foldl (fun m o => m.addToNodeValue o.1 o.2) (WaveletOctree.create config) = E at cE hrep hcl hb
  have hnm := cell_nodeInMap hpos hi
  have hE : E.getNodeValue ⟨0, i⟩ = added ops i := by
    have := hrep.node (by rw [cE]; exact hH) ⟨0, i⟩ (by rw [cE]; exact hnm)
    rw [this]; simp [boxMean]
  have hpath : F.path ⟨0, i⟩ = E.path ⟨0, i⟩ := by
    unfold WaveletOctree.path WaveletOctree.toInternal WaveletOctree.rootIndexOffset
    rw [cF, cE]
  have hlen : (E.path ⟨0, i⟩).length ≤ config.treeHeight := by
    unfold WaveletOctree.path
    rw [nodePath_length (toInternal_inTree E _ (by rw [cE]; exact hnm)), cE]
    omega
  have := hcl.read (by omega) hA0 hb (E.path ⟨0, i⟩) hlen
  unfold Rounded.getCellValue Rounded.getNodeValue
  rw [indexAndHeight_zero, hpath, ← hE]
  exact this

/-- The drift grows linearly: about one part in two million per update and level. -/
theorem pow_le_linear {x : ℚ} (hx : 0 ≤ x) (N : Nat) (h : N * x ≤ 1 / 16) : (1 + x) ^ N ≤ 1 + 16 / 15 * (N * x) := by
  induction N with
  | zero => simp
  | succ N ih =>
    push_cast at h
    have hNx : 0 ≤ (N : ℚ) * x := by positivity
    have ih := ih (by nlinarith)
    rw [pow_succ]
    refine (mul_le_mul_of_nonneg_right ih (by positivity)).trans ?_
    push_cast
    have : (N : ℚ) * x * x ≤ 1 / 16 * x := mul_le_mul_of_nonneg_right (by linarith) hx
    nlinarith

/-- C80 (size of the drift): it grows at most linearly with the number of updates, the height of the octree and the size of the log-odds. -/
theorem C80_drift_linear (A : ℚ) (hA : 0 ≤ A) (H N : Nat) (h : N * (7 * H + 1) ≤ 2 ^ 20) (hH : H ≤ 20) :
    drift A H N ≤ A * ((N + 8) * (8 * H + 2)) / 2 ^ 24 := by
  have h1 : (N : ℚ) * (7 * H + 1) ≤ 2 ^ 20 := by exact_mod_cast h
  have h2 := pow_le_linear (x := (7 * (H : ℚ) + 1) / 2 ^ 24) (by positivity) N (by rw [← mul_div_assoc, div_le_iff₀ (by norm_num)]; linarith)
  have hH' : (H : ℚ) ≤ 20 := by exact_mod_cast hH
  have hH0 : (0 : ℚ) ≤ H := by positivity
  have hN0 : (0 : ℚ) ≤ N := by positivity
  unfold drift
  rw [mul_div_assoc A]
  apply mul_le_mul_of_nonneg_left _ hA
  have h3 := mul_le_mul_of_nonneg_right h2 (by positivity : (0 : ℚ) ≤ 1 + 57 * H / 2 ^ 24)
  refine (sub_le_sub_right h3 1).trans ?_
  rw [le_div_iff₀ (by norm_num)]
  have e : ((1 + 16 / 15 * ((N : ℚ) * ((7 * H + 1) / 2 ^ 24))) * (1 + 57 * H / 2 ^ 24) - 1) * 2 ^ 24
      = 16 / 15 * ((N : ℚ) * (7 * H + 1)) * (1 + 57 * H / 2 ^ 24) + 57 * H := by ring
  rw [e]
  have h4 : 1 + 57 * (H : ℚ) / 2 ^ 24 ≤ 1 + 1 / 1000 := by
    have : 57 * (H : ℚ) / 2 ^ 24 ≤ 1 / 1000 := by rw [div_le_iff₀ (by norm_num)]; linarith
    linarith
  have h5 := mul_le_mul_of_nonneg_left h4 (by positivity : (0 : ℚ) ≤ 16 / 15 * ((N : ℚ) * (7 * H + 1)))
  have h6 : 0 ≤ (N : ℚ) * H := by positivity
  nlinarith

/-! ## Hashed wavelet octree -/

/-- What was added to a cell of a hashed map. -/
def addedToCell (ops : List (Index 3 × ℚ × ℚ)) (j : Index 3) : ℚ := ((ops.filter fun o => decide (o.1 = j)).map fun o => o.2.1).sum

/-- The number of updates of cells in the same block. -/
def updatesInBlock (H : Nat) (ops : List (Index 3 × ℚ × ℚ)) (j : Index 3) : Nat := (ops.filter fun o => decide (SameBlock H o.1 j)).length

theorem addedToCell_concat (ops : List (Index 3 × ℚ × ℚ)) (o : Index 3 × ℚ × ℚ) (j : Index 3) :
    addedToCell (ops ++ [o]) j = addedToCell ops j + if o.1 = j then o.2.1 else 0 := by
  unfold addedToCell
  rw [List.filter_append, List.map_append, List.sum_append]
  congr 1
  by_cases h : o.1 = j <;> simp [h]

theorem updatesInBlock_concat (H : Nat) (ops : List (Index 3 × ℚ × ℚ)) (o : Index 3 × ℚ × ℚ) (j : Index 3) :
    updatesInBlock H (ops ++ [o]) j = updatesInBlock H ops j + if SameBlock H o.1 j then 1 else 0 := by
  unfold updatesInBlock
  rw [List.filter_append, List.length_append]
  congr 1
  by_cases h : SameBlock H o.1 j <;> simp [h]

open HashedWaveletOctree in
/-- C80 (hashed wavelet octree): the same for the hashed map, where only the updates in the block of the cell count. -/
theorem C80_hashed_wavelet_octree (config : HashedWaveletOctreeConfig) (hc : config.isValid = true) (hH : config.treeHeight ≤ 20)
    (ops : List (Index 3 × ℚ × ℚ)) (hops : ∀ o ∈ ops, IsFloat o.2.1)
    (j : Index 3) (A : ℚ) (hA : ∀ k i, SameBlock config.treeHeight j i → |addedToCell (ops.take k) i| ≤ A) :
    |Rounded.hashedValue fl (ops.foldl (fun m o => Rounded.hashedAdd fl m o.1 o.2.1 o.2.2) (HashedWaveletOctree.create config)) j - addedToCell ops j|
      ≤ drift A config.treeHeight (updatesInBlock config.treeHeight ops j) := by
  have hself : SameBlock config.treeHeight j j := (sameBlock_iff j j).2 rfl
  have hA0 : 0 ≤ A := (abs_nonneg _).trans (hA 0 j hself)
  have inv : ∀ ops : List (Index 3 × ℚ × ℚ), (∀ o ∈ ops, IsFloat o.2.1) →
      (∀ k i, SameBlock config.treeHeight j i → |addedToCell (ops.take k) i| ≤ A) →
      let F := ops.foldl (fun m o => Rounded.hashedAdd fl m o.1 o.2.1 o.2.2) (HashedWaveletOctree.create config)
      let E := ops.foldl (fun m o => m.addToCellValue o.1 o.2.1 o.2.2) (HashedWaveletOctree.create config)
      F.config = config ∧ E.config = config ∧ E.Inv ∧ (∀ i, E.getCellValue i = addedToCell ops i) ∧
        ((F.blocks.getBlock (indexToBlockIndex config.treeHeight j)).isSome = (E.blocks.getBlock (indexToBlockIndex config.treeHeight j)).isSome) ∧
        (∀ now, (F.blockOr (indexToBlockIndex config.treeHeight j) now).treeHeight = config.treeHeight ∧
          Close config.treeHeight (F.blockOr (indexToBlockIndex config.treeHeight j) now).root (F.blockOr (indexToBlockIndex config.treeHeight j) now).rootScale
          (E.blockOr (indexToBlockIndex config.treeHeight j) now).root (E.blockOr (indexToBlockIndex config.treeHeight j) now).rootScale
          (A * ((1 + (7 * config.treeHeight + 1) / 2 ^ 24) ^ updatesInBlock config.treeHeight ops j - 1))) ∧
        ∀ now (q : List (Fin (2 ^ 3))), q.length ≤ config.treeHeight →
          |(E.blockOr (indexToBlockIndex config.treeHeight j) now).root.getValue (E.blockOr (indexToBlockIndex config.treeHeight j) now).rootScale q| ≤ A := by
    -- the bound follows from the values of the cells
    have hbound : ∀ (E : HashedWaveletOctree) (f : Index 3 → ℚ), E.config = config → E.Inv → (∀ i, E.getCellValue i = f i) →
        (∀ i, SameBlock config.treeHeight j i → |f i| ≤ A) →
        ∀ now (q : List (Fin (2 ^ 3))), q.length ≤ config.treeHeight →
          |(E.blockOr (indexToBlockIndex config.treeHeight j) now).root.getValue (E.blockOr (indexToBlockIndex config.treeHeight j) now).rootScale q| ≤ A := by
      intro E f cE hE hf hfA now
      apply cells_bound hH
      intro c hcr
      -- the cell of the block with this offset
      set i : Index 3 := fun k => (indexToBlockIndex config.treeHeight j k) * 2 ^ config.treeHeight + c k with hi
      have hblk : indexToBlockIndex config.treeHeight i = indexToBlockIndex config.treeHeight j := by
        funext k
        have h1 := hcr k
        rw [hi]
        simp only [indexToBlockIndex, divExp2Floor_eq]
        rw [Int.add_comm, Int.add_mul_ediv_right _ _ (Int.ne_of_gt (two_pow_pos' _)), Int.ediv_eq_zero_of_lt h1.1 h1.2, Int.zero_add]
      have hmod : (fun k => i k % 2 ^ config.treeHeight) = c := by
        funext k
        have h1 := hcr k
        rw [hi]
        simp only
        rw [Int.add_comm, Int.add_mul_emod_self_right, Int.emod_eq_of_lt h1.1 h1.2]
      have hv := blockOr_val hE i now
      rw [cE, hblk] at hv
      have hth := (weak hE (indexToBlockIndex config.treeHeight j) now).1
      have hth' : (E.blockOr (indexToBlockIndex config.treeHeight j) now).treeHeight = config.treeHeight := by
        rw [← cE]; rw [← cE] at hth; exact hth
      have h2 := WaveletBlock.getCellValue_eq (E.blockOr (indexToBlockIndex config.treeHeight j) now) (by rw [hth']; exact hH) i
      rw [hth', hmod, hv] at h2
      unfold WaveletBlock.getCellValue at h2
      rw [hth'] at h2
      rw [h2, hf]
      exact hfA i ((sameBlock_iff j i).2 hblk)
    intro ops
    induction ops using List.reverseRecOn with
    | nil =>
      intro _ _
      refine ⟨rfl, rfl, Inv.create hc hH, fun i => rfl, rfl, fun now => ⟨rfl, ?_⟩, ?_⟩
      · show Close config.treeHeight (.leaf zeroDetails) 0 (.leaf zeroDetails) 0 _
        have := close_create config.treeHeight
        simpa [updatesInBlock] using this
      · exact hbound _ (fun _ => 0) rfl (Inv.create hc hH) (fun i => rfl) (fun i _ => by rw [abs_zero]; exact hA0)
    | append_singleton ops o ih =>
      intro hops hA
      obtain ⟨cF, cE, hE, hval, hsome, hcl, _⟩ := ih (fun o' h => hops o' (by simp [h])) (fun k i hi => by
        rcases Nat.le_total k ops.length with hk | hk
        · have := hA k i hi
          rwa [List.take_append_of_le_length hk] at this
        · have := hA ops.length i hi
          rw [List.take_append_of_le_length (Nat.le_refl _), List.take_length] at this
          rwa [List.take_of_length_le hk])
      have hu := hops o (by simp)
      simp only [List.foldl_append, List.foldl_cons, List.foldl_nil]
      generalize ops.foldl (fun m o => Rounded.hashedAdd fl m o.1 o.2.1 o.2.2) (HashedWaveletOctree.create config) = F at cF hsome hcl ⊢
      generalize ops.foldl (fun m o => m.addToCellValue o.1 o.2.1 o.2.2) (HashedWaveletOctree.create config) = E at cE hE hval hsome hcl ⊢
      have hE' := hE.add o.1 o.2.1 o.2.2
      have hval' : ∀ i, (E.addToCellValue o.1 o.2.1 o.2.2).getCellValue i = addedToCell (ops ++ [o]) i := by
        intro i
        rw [getCellValue_add hE, addedToCell_concat, hval]
        by_cases h : i = o.1
        · rw [if_pos h, if_pos h.symm]
        · rw [if_neg h, if_neg (fun e => h e.symm), add_zero]
      have hb' := hbound (E.addToCellValue o.1 o.2.1 o.2.2) _ cE hE' hval' (fun i hi => by
        have := hA (ops ++ [o]).length i hi
        rwa [List.take_length] at this)
      have gF := modify_getBlock F o.1 o.2.2 (fun b => Rounded.blockAdd fl b (F.nodeToCellIndex ⟨0, o.1⟩) o.2.1 o.2.2) (indexToBlockIndex config.treeHeight j)
      have gE := modify_getBlock E o.1 o.2.2 (fun b => b.addToCellValue (E.nodeToCellIndex ⟨0, o.1⟩) o.2.1 o.2.2) (indexToBlockIndex config.treeHeight j)
      change (Rounded.hashedAdd fl F o.1 o.2.1 o.2.2).blocks.getBlock (indexToBlockIndex config.treeHeight j) = _ at gF
      change (E.addToCellValue o.1 o.2.1 o.2.2).blocks.getBlock (indexToBlockIndex config.treeHeight j) = _ at gE
      rw [cF] at gF
      rw [cE] at gE
      refine ⟨cF, cE, hE', hval', ?_, fun now => ?_, hb'⟩
      · rw [gF, gE]
        split
        · rfl
        · exact hsome
      · have hcell : F.nodeToCellIndex ⟨0, o.1⟩ = E.nodeToCellIndex ⟨0, o.1⟩ := by
          unfold HashedWaveletOctree.nodeToCellIndex; rw [cF, cE]
        rw [updatesInBlock_concat]
        by_cases hk : indexToBlockIndex config.treeHeight j = indexToBlockIndex config.treeHeight o.1
        · rw [if_pos hk] at gF gE
          rw [if_pos ((sameBlock_iff o.1 j).2 hk), ← drift_step]
          obtain ⟨hth, hc0⟩ := hcl o.2.2
          have hthE := (weak hE (indexToBlockIndex config.treeHeight j) o.2.2).1
          have hthE' : (E.blockOr (indexToBlockIndex config.treeHeight j) o.2.2).treeHeight = config.treeHeight := by
            rw [← cE]; rw [← cE] at hthE; exact hthE
          have eF : (Rounded.hashedAdd fl F o.1 o.2.1 o.2.2).blockOr (indexToBlockIndex config.treeHeight j) now
              = Rounded.blockAdd fl (F.blockOr (indexToBlockIndex config.treeHeight j) o.2.2) (E.nodeToCellIndex ⟨0, o.1⟩) o.2.1 o.2.2 := by
            unfold HashedWaveletOctree.blockOr
            rw [gF, ← hcell, cF]
            rfl
          have eE : ∀ now, (E.addToCellValue o.1 o.2.1 o.2.2).blockOr (indexToBlockIndex config.treeHeight j) now
              = (E.blockOr (indexToBlockIndex config.treeHeight j) o.2.2).addToCellValue (E.nodeToCellIndex ⟨0, o.1⟩) o.2.1 o.2.2 := by
            intro now
            unfold HashedWaveletOctree.blockOr
            rw [gE, cE]
            rfl
          have hb2 := hb' now
          rw [eE] at hb2 ⊢
          rw [eF]
          refine ⟨hth, ?_⟩
          unfold WaveletBlock.addToCellValue at hb2 ⊢
          unfold Rounded.blockAdd
          rw [hthE'] at hb2 ⊢
          rw [hth]
          exact hc0.add _ o.2.1 hu A hA0 hb2
        · rw [if_neg hk] at gF gE
          rw [if_neg (fun h => hk ((sameBlock_iff o.1 j).1 h)), Nat.add_zero]
          have eF : (Rounded.hashedAdd fl F o.1 o.2.1 o.2.2).blockOr (indexToBlockIndex config.treeHeight j) now
              = F.blockOr (indexToBlockIndex config.treeHeight j) now := by
            unfold HashedWaveletOctree.blockOr
            rw [gF]; rfl
          have eE : (E.addToCellValue o.1 o.2.1 o.2.2).blockOr (indexToBlockIndex config.treeHeight j) now
              = E.blockOr (indexToBlockIndex config.treeHeight j) now := by
            unfold HashedWaveletOctree.blockOr
            rw [gE]; rfl
          rw [eF, eE]
          exact hcl now
  obtain ⟨cF, cE, hE, hval, hsome, hcl, hb⟩ := inv ops hops hA
  generalize ops.foldl (fun m o => Rounded.hashedAdd fl m o.1 o.2.1 o.2.2) (HashedWaveletOctree.create config) = F at cF hsome hcl ⊢
  generalize ops.foldl (fun m o => m.addToCellValue o.1 o.2.1 o.2.2) (HashedWaveletOctree.create config) = E at cE hE hval hsome hcl hb
  obtain ⟨hth, hc0⟩ := hcl 0
  have hv := blockOr_val hE j 0
  rw [cE] at hv
  have hthE := (weak hE (indexToBlockIndex config.treeHeight j) 0).1
  have hthE' : (E.blockOr (indexToBlockIndex config.treeHeight j) 0).treeHeight = config.treeHeight := by
    rw [← cE]; rw [← cE] at hthE; exact hthE
  have h2 := WaveletBlock.getCellValue_eq (E.blockOr (indexToBlockIndex config.treeHeight j) 0) (by rw [hthE']; exact hH) j
  rw [hthE', hv, hval] at h2
  unfold WaveletBlock.getCellValue at h2
  rw [hthE'] at h2
  unfold Rounded.hashedValue
  rw [cF]
  cases hFb : F.blocks.getBlock (indexToBlockIndex config.treeHeight j) with
  | none =>
    rw [hFb] at hsome
    have hEb : E.blocks.getBlock (indexToBlockIndex config.treeHeight j) = none := by
      cases h : E.blocks.getBlock (indexToBlockIndex config.treeHeight j) with
      | none => rfl
      | some b => rw [h] at hsome; simp at hsome
    have h0 : addedToCell ops j = 0 := by
      rw [← hval, getCellValue_eq hE, cE, hEb]
    dsimp only
    rw [h0, sub_zero, abs_zero]
    have := hc0.read (by omega) hA0 (hb 0) [] (by simp)
    exact (abs_nonneg _).trans this
  | some b =>
    have hbo : F.blockOr (indexToBlockIndex config.treeHeight j) 0 = b := by
      unfold HashedWaveletOctree.blockOr; rw [hFb]; rfl
    rw [hbo] at hth hc0
    dsimp only
    unfold Rounded.blockValue
    rw [nodeToCell_zero F (by rw [cF]; exact hH), cF, hth, ← h2]
    apply hc0.read (by omega) hA0 (hb 0)
    rw [nodePath_length (cellInTree (WaveletBlock.mod_range _ j))]
    simp

/-- C80 (order): integrating the same updates in another order gives the same value up to twice the drift. -/
theorem C80_order (config : HashedWaveletOctreeConfig) (hc : config.isValid = true) (hH : config.treeHeight ≤ 20)
    (ops ops' : List (Index 3 × ℚ × ℚ)) (hp : ops.Perm ops') (hops : ∀ o ∈ ops, IsFloat o.2.1) (j : Index 3) (A : ℚ)
    (hA : ∀ k i, SameBlock config.treeHeight j i → |addedToCell (ops.take k) i| ≤ A)
    (hA' : ∀ k i, SameBlock config.treeHeight j i → |addedToCell (ops'.take k) i| ≤ A) :
    |Rounded.hashedValue fl (ops.foldl (fun m o => Rounded.hashedAdd fl m o.1 o.2.1 o.2.2) (HashedWaveletOctree.create config)) j
      - Rounded.hashedValue fl (ops'.foldl (fun m o => Rounded.hashedAdd fl m o.1 o.2.1 o.2.2) (HashedWaveletOctree.create config)) j|
      ≤ 2 * drift A config.treeHeight (updatesInBlock config.treeHeight ops j) := by
  have h1 := C80_hashed_wavelet_octree config hc hH ops hops j A hA
  have h2 := C80_hashed_wavelet_octree config hc hH ops' (fun o h => hops o (hp.mem_iff.2 h)) j A hA'
  have e1 : addedToCell ops' j = addedToCell ops j := by
    unfold addedToCell
    exact (((hp.filter _).map _).sum_eq).symm
  have e2 : updatesInBlock config.treeHeight ops' j = updatesInBlock config.treeHeight ops j := ((hp.filter _).length_eq).symm
  rw [e1, e2] at h2
  rw [abs_le] at h1 h2 ⊢
  constructor <;> linarith [h1.1, h1.2, h2.1, h2.2]

/-! ## Thresholding -/

/-- The operation on the map in single precision. -/
def HashedWaveletWrite.runRounded (m : HashedWaveletOctree) : HashedWaveletWrite → HashedWaveletOctree
  | .add i u now => Rounded.hashedAdd fl m i u now
  | .threshold => Rounded.hashedThreshold fl m
  | o => o.run m

/-- An update by a single precision number, thresholding or clearing; not overwriting. -/
def HashedWaveletWrite.IsUpdate : HashedWaveletWrite → Prop
  | .add _ u _ => IsFloat u
  | .set _ _ _ => False
  | _ => True

/-- Updates in the block of a cell. -/
def HashedWaveletWrite.updates (H : Nat) (ops : List HashedWaveletWrite) (j : Index 3) : Nat :=
  (ops.filter fun o => match o with | .add i _ _ => decide (SameBlock H i j) | _ => false).length

/-- Thresholdings. -/
def HashedWaveletWrite.thresholds (ops : List HashedWaveletWrite) : Nat := (ops.filter fun o => match o with | .threshold => true | _ => false).length

/-- How far a cell of a hashed wavelet octree can drift by `N` updates in its block and `T` thresholdings. -/
def driftT (A : ℚ) (H N T : Nat) : ℚ := A * ((1 + (7 * H + 1) / 2 ^ 24) ^ N * (1 + 128 * H / 2 ^ 24) ^ T * (1 + 57 * H / 2 ^ 24) - 1)

/-- The part of the drift that is stored in the map. -/
def stored (A : ℚ) (H N T : Nat) : ℚ := A * ((1 + (7 * H + 1) / 2 ^ 24) ^ N * (1 + 128 * H / 2 ^ 24) ^ T - 1)

theorem Close.read' {n : Nat} (hn : n ≤ 1000) {t tE : WTree} {s sE A ε : ℚ} (hA : 0 ≤ A) (h : Close n t s tE sE ε)
    (hb : ∀ q : List (Fin (2 ^ 3)), q.length ≤ n → |tE.getValue sE q| ≤ A) (q : List (Fin (2 ^ 3))) (hq : q.length ≤ n) :
    |Rounded.getValue fl t s q - tE.getValue sE q| ≤ ε + 57 * n * (A + ε) * ulp1 := by
  have hε0 : 0 ≤ ε := (abs_nonneg _).trans (h.values [] (by simp))
  have hB : ∀ q : List (Fin (2 ^ 3)), q.length ≤ n → |t.getValue s q| ≤ A + ε := by
    intro q hq
    have h1 := h.values q hq
    have h2 := hb q hq
    rw [abs_le] at h1 h2 ⊢
    constructor <;> linarith [h1.1, h1.2, h2.1, h2.2]
  have h1 := getValue_fl t h.floats s (A + ε) (by linarith) n hn hB q hq
  have h2 := h.values q hq
  have h3 : 57 * (q.length : ℚ) * (A + ε) * ulp1 ≤ 57 * n * (A + ε) * ulp1 := by
    have : (q.length : ℚ) ≤ n := by exact_mod_cast hq
    apply mul_le_mul_of_nonneg_right _ ulp1_pos.le
    apply mul_le_mul_of_nonneg_right _ (by linarith)
    linarith
  rw [abs_le] at h1 h2 ⊢
  constructor <;> linarith [h1.1, h1.2, h2.1, h2.2]

theorem stored_nonneg {A : ℚ} (hA : 0 ≤ A) (H N T : Nat) : 0 ≤ stored A H N T := by
  unfold stored
  have h1 : (1 : ℚ) ≤ (1 + (7 * H + 1) / 2 ^ 24) ^ N := one_le_pow₀ (by have : (0 : ℚ) ≤ (7 * H + 1) / 2 ^ 24 := by positivity
                                                                        linarith)
  have h2 : (1 : ℚ) ≤ (1 + 128 * H / 2 ^ 24) ^ T := one_le_pow₀ (by have : (0 : ℚ) ≤ 128 * H / 2 ^ 24 := by positivity
                                                                    linarith)
  have := one_le_mul_of_one_le_of_one_le h1 h2
  exact mul_nonneg hA (by linarith)

theorem stored_add (A : ℚ) (H N T : Nat) : stored A H N T + (7 * H + 1) * (A + stored A H N T) * ulp1 = stored A H (N + 1) T := by
  unfold stored ulp1; rw [pow_succ]; ring

theorem stored_threshold (A : ℚ) (H N T : Nat) : stored A H N T + 128 * H * (A + stored A H N T) * ulp1 = stored A H N (T + 1) := by
  unfold stored ulp1; rw [pow_succ]; ring

theorem stored_read (A : ℚ) (H N T : Nat) : stored A H N T + 57 * H * (A + stored A H N T) * ulp1 = driftT A H N T := by
  unfold stored driftT ulp1; ring

/-- Two blocks, one in single precision and one exact. -/
structure BlockClose (config : HashedWaveletOctreeConfig) (b bE : WaveletBlock) (ε : ℚ) : Prop where
  height : b.treeHeight = config.treeHeight
  lo : b.minLogOdds = config.minLogOdds
  hi : b.maxLogOdds = config.maxLogOdds
  flag : b.needsThresholding = bE.needsThresholding
  depth : WTree.DepthLe config.treeHeight b.root
  close : Close config.treeHeight b.root b.rootScale bE.root bE.rootScale ε

theorem roundedAddPath_depth {h : Nat} {t : WTree} (hn : t ≠ .nil) (ht : WTree.DepthLe h t) (p : List (Fin (2 ^ 3))) (hp : p.length ≤ h) (u : ℚ) :
    WTree.DepthLe h (Rounded.addPath fl t p u).1 := by
  induction p generalizing t h with
  | nil => exact ht
  | cons c p ih =>
    obtain ⟨h, rfl⟩ : ∃ k, h = k + 1 := ⟨h - 1, by rw [List.length_cons] at hp; omega⟩
    cases p with
    | nil => exact ht.setData _
    | cons c' p =>
      obtain ⟨h, rfl⟩ : ∃ k, h = k + 1 := ⟨h - 1, by simp only [List.length_cons] at hp; omega⟩
      simp only [Rounded.addPath, WTree.withDetails]
      apply WTree.DepthLe.setData
      apply WTree.DepthLe.setChild hn ht
      exact ih (getOrAllocateChild_ne_nil _ _ _) (ht.getOrAllocate c _) (by simp only [List.length_cons] at hp ⊢; omega)

open HashedWaveletOctree in
/-- Values of a block are bounded if the values of its cells are. -/
theorem block_bound {config : HashedWaveletOctreeConfig} (hH : config.treeHeight ≤ 20) {E : HashedWaveletOctree} (cE : E.config = config) (hE : E.Inv) (j : Index 3) {A : ℚ}
    (hA : ∀ i, SameBlock config.treeHeight j i → |E.getCellValue i| ≤ A) (now : ℚ) (q : List (Fin (2 ^ 3))) (hq : q.length ≤ config.treeHeight) :
    |(E.blockOr (indexToBlockIndex config.treeHeight j) now).root.getValue (E.blockOr (indexToBlockIndex config.treeHeight j) now).rootScale q| ≤ A := by
  revert q
  apply cells_bound hH
  intro c hcr
  set i : Index 3 := fun k => (indexToBlockIndex config.treeHeight j k) * 2 ^ config.treeHeight + c k with hi
  have hblk : indexToBlockIndex config.treeHeight i = indexToBlockIndex config.treeHeight j := by
    funext k
    have h1 := hcr k
    rw [hi]
    simp only [indexToBlockIndex, divExp2Floor_eq]
    rw [Int.add_comm, Int.add_mul_ediv_right _ _ (Int.ne_of_gt (two_pow_pos' _)), Int.ediv_eq_zero_of_lt h1.1 h1.2, Int.zero_add]
  have hmod : (fun k => i k % 2 ^ config.treeHeight) = c := by
    funext k
    have h1 := hcr k
    rw [hi]
    simp only
    rw [Int.add_comm, Int.add_mul_emod_self_right, Int.emod_eq_of_lt h1.1 h1.2]
  have hv := blockOr_val hE i now
  rw [cE, hblk] at hv
  have hth := (weak hE (indexToBlockIndex config.treeHeight j) now).1
  have hth' : (E.blockOr (indexToBlockIndex config.treeHeight j) now).treeHeight = config.treeHeight := by
    rw [← cE]; rw [← cE] at hth; exact hth
  have h2 := WaveletBlock.getCellValue_eq (E.blockOr (indexToBlockIndex config.treeHeight j) now) (by rw [hth']; exact hH) i
  rw [hth', hmod, hv] at h2
  unfold WaveletBlock.getCellValue at h2
  rw [hth'] at h2
  rw [h2]
  exact hA i ((sameBlock_iff j i).2 hblk)

open HashedWaveletOctree in
/-- C80 (thresholding): after any history of updates, thresholdings and clearings, the value of a cell in single precision differs from what the table of exact
values holds by at most the drift of the updates in its block and the thresholdings. -/
theorem C80_thresholded (config : HashedWaveletOctreeConfig) (hc : config.isValid = true) (hH : config.treeHeight ≤ 20)
    (ops : List HashedWaveletWrite) (hops : ∀ o ∈ ops, o.IsUpdate) (j : Index 3) (A : ℚ) (hlo : |config.minLogOdds| ≤ A) (hhi : |config.maxLogOdds| ≤ A)
    (hA : ∀ k i, SameBlock config.treeHeight j i →
      |((ops.take k).foldl (HashedWaveletWrite.spec config.treeHeight config.minLogOdds config.maxLogOdds) .empty).value i| ≤ A) :
    |Rounded.hashedValue fl (ops.foldl HashedWaveletWrite.runRounded (HashedWaveletOctree.create config)) j
        - (ops.foldl (HashedWaveletWrite.spec config.treeHeight config.minLogOdds config.maxLogOdds) .empty).value j|
      ≤ driftT A config.treeHeight (HashedWaveletWrite.updates config.treeHeight ops j) (HashedWaveletWrite.thresholds ops) := by
  have hA0 : 0 ≤ A := (abs_nonneg _).trans hlo
  have hself : SameBlock config.treeHeight j j := (sameBlock_iff j j).2 rfl
  set K := indexToBlockIndex config.treeHeight j with hK
  have inv : ∀ ops : List HashedWaveletWrite, (∀ o ∈ ops, o.IsUpdate) →
      (∀ k i, SameBlock config.treeHeight j i →
        |((ops.take k).foldl (HashedWaveletWrite.spec config.treeHeight config.minLogOdds config.maxLogOdds) .empty).value i| ≤ A) →
      let F := ops.foldl HashedWaveletWrite.runRounded (HashedWaveletOctree.create config)
      let E := ops.foldl HashedWaveletWrite.run (HashedWaveletOctree.create config)
      F.config = config ∧ E.config = config ∧ E.Inv ∧
        E.Holds (ops.foldl (HashedWaveletWrite.spec config.treeHeight config.minLogOdds config.maxLogOdds) .empty) ∧
        ((F.blocks.getBlock K).isSome = (E.blocks.getBlock K).isSome) ∧
        (∀ now, BlockClose config (F.blockOr K now) (E.blockOr K now)
          (stored A config.treeHeight (HashedWaveletWrite.updates config.treeHeight ops j) (HashedWaveletWrite.thresholds ops))) ∧
        ∀ now (q : List (Fin (2 ^ 3))), q.length ≤ config.treeHeight → |(E.blockOr K now).root.getValue (E.blockOr K now).rootScale q| ≤ A := by
    intro ops
    induction ops using List.reverseRecOn with
    | nil =>
      intro _ hA
      have hI := Inv.create hc hH
      have hpos := hI.pos
      refine ⟨rfl, rfl, hI, ⟨fun i => rfl, fun i => ?_⟩, rfl, fun now => ?_, ?_⟩
      · rw [allocated_iff]; exact Iff.rfl
      · refine ⟨rfl, rfl, rfl, rfl, ?_, ?_⟩
        · show WTree.DepthLe config.treeHeight (.leaf zeroDetails)
          obtain ⟨h, e⟩ : ∃ h, config.treeHeight = h + 1 := ⟨config.treeHeight - 1, by
            have : 0 < config.treeHeight := hpos
            omega⟩
          rw [e]; exact WTree.DepthLe.leaf _ _
        · show Close config.treeHeight (.leaf zeroDetails) 0 (.leaf zeroDetails) 0 _
          exact (close_create _).mono (stored_nonneg hA0 _ _ _)
      · exact block_bound hH rfl hI j (fun i hi => hA 0 i hi)
    | append_singleton ops o ih =>
      intro hops hA
      obtain ⟨cF, cE, hE, hval, hsome, hcl, hb⟩ := ih (fun o' h => hops o' (by simp [h])) (fun k i hi => by
        rcases Nat.le_total k ops.length with hk | hk
        · have := hA k i hi
          rwa [List.take_append_of_le_length hk] at this
        · have := hA ops.length i hi
          rw [List.take_append_of_le_length (Nat.le_refl _), List.take_length] at this
          rwa [List.take_of_length_le hk])
      have ho := hops o (by simp)
      have hAfull := hA (ops ++ [o]).length
      rw [List.take_length] at hAfull
      clear hA
      have hN : HashedWaveletWrite.updates config.treeHeight (ops ++ [o]) j = HashedWaveletWrite.updates config.treeHeight ops j
          + match o with | .add i _ _ => if SameBlock config.treeHeight i j then 1 else 0 | _ => 0 := by
        unfold HashedWaveletWrite.updates
        rw [List.filter_append, List.length_append]
        congr 1
        cases o with
        | add i u now => by_cases h : SameBlock config.treeHeight i j <;> simp [h]
        | _ => rfl
      have hT : HashedWaveletWrite.thresholds (ops ++ [o]) = HashedWaveletWrite.thresholds ops + match o with | .threshold => 1 | _ => 0 := by
        unfold HashedWaveletWrite.thresholds
        rw [List.filter_append, List.length_append]
        congr 1
        cases o <;> rfl
      rw [hN, hT]
      simp only [List.foldl_append, List.foldl_cons, List.foldl_nil] at hAfull ⊢
      generalize ops.foldl HashedWaveletWrite.runRounded (HashedWaveletOctree.create config) = F at cF hsome hcl ⊢
      generalize ops.foldl HashedWaveletWrite.run (HashedWaveletOctree.create config) = E at cE hE hval hsome hcl hb ⊢
      generalize ops.foldl (HashedWaveletWrite.spec config.treeHeight config.minLogOdds config.maxLogOdds) .empty = tab at hval hAfull ⊢
      have hE' := hE.write o
      have hval' := hval.write hE o
      rw [cE] at hval'
      have cE' : (o.run E).config = config := (write_config E o).trans cE
      have hb' := block_bound hH cE' hE' j (A := A) (fun i hi => by rw [hval'.1]; exact hAfull i hi)
      have cF' : (o.runRounded F).config = config := by cases o <;> exact cF
      refine ⟨cF', cE', hE', hval', ?_⟩
      rw [← and_assoc]
      refine ⟨?_, hb'⟩
      cases o with
      | set i v now => exact absurd ho id
      | clear =>
        refine ⟨rfl, fun now => ?_⟩
        have e1 : (HashedWaveletWrite.runRounded F .clear).blockOr K now = .create config.treeHeight config.minLogOdds config.maxLogOdds now := by
          rw [← cF]; rfl
        have e2 : (HashedWaveletWrite.run E .clear).blockOr K now = .create config.treeHeight config.minLogOdds config.maxLogOdds now := by
          rw [← cE]; rfl
        rw [e1, e2]
        refine ⟨rfl, rfl, rfl, rfl, ?_, ?_⟩
        · show WTree.DepthLe config.treeHeight (.leaf zeroDetails)
          obtain ⟨h, e⟩ : ∃ h, config.treeHeight = h + 1 := ⟨config.treeHeight - 1, by
            have := hE.pos
            rw [cE] at this
            omega⟩
          rw [e]; exact WTree.DepthLe.leaf _ _
        · show Close config.treeHeight (.leaf zeroDetails) 0 (.leaf zeroDetails) 0 _
          exact (close_create _).mono (stored_nonneg hA0 _ _ _)
      | threshold =>
        have gF : (HashedWaveletWrite.runRounded F .threshold).blocks.getBlock K = (F.blocks.getBlock K).map (Rounded.blockThreshold fl) :=
          SpatialHash.getBlock_mapBlocks F.blocks K fun _ b => Rounded.blockThreshold fl b
        have gE : (HashedWaveletWrite.run E .threshold).blocks.getBlock K = (E.blocks.getBlock K).map WaveletBlock.threshold :=
          SpatialHash.getBlock_mapBlocks E.blocks K fun _ b => b.threshold
        refine ⟨by rw [gF, gE, Option.isSome_map, Option.isSome_map]; exact hsome, fun now => ?_⟩
        have hcn := hcl now
        have hbn := hb now
        have hst : stored A config.treeHeight (HashedWaveletWrite.updates config.treeHeight ops j) (HashedWaveletWrite.thresholds ops) ≤ stored A config.treeHeight (HashedWaveletWrite.updates config.treeHeight ops j) (HashedWaveletWrite.thresholds ops + 1) := by
          rw [← stored_threshold]
          have h0 := stored_nonneg hA0 config.treeHeight (HashedWaveletWrite.updates config.treeHeight ops j) (HashedWaveletWrite.thresholds ops)
          have hu := ulp1_pos
          have : 0 ≤ 128 * (config.treeHeight : ℚ) * (A + stored A config.treeHeight (HashedWaveletWrite.updates config.treeHeight ops j) (HashedWaveletWrite.thresholds ops)) * ulp1 := by positivity
          linarith
        unfold HashedWaveletOctree.blockOr at hcn hbn ⊢
        rw [gF, gE, cF', cE']
        rw [cF, cE] at hcn
        rw [cE] at hbn
        cases hFb : F.blocks.getBlock K with
        | none =>
          have hEb : E.blocks.getBlock K = none := by
            cases h : E.blocks.getBlock K with
            | none => rfl
            | some b => rw [hFb, h] at hsome; simp at hsome
          rw [hFb, hEb] at hcn
          rw [hEb]
          exact ⟨hcn.height, hcn.lo, hcn.hi, hcn.flag, hcn.depth, hcn.close.mono hst⟩
        | some b =>
          cases hEb : E.blocks.getBlock K with
          | none => rw [hFb, hEb] at hsome; simp at hsome
          | some bE =>
            rw [hFb, hEb] at hcn
            rw [hEb] at hbn
            simp only [Option.getD_some, Option.map_some] at hcn hbn ⊢
            have hok := hE.ok K bE hEb
            rw [cE] at hok
            by_cases hfl : bE.needsThresholding = true
            · unfold Rounded.blockThreshold WaveletBlock.threshold
              rw [if_pos hfl, if_pos (hcn.flag.trans hfl)]
              have hcc := hcn.close.threshold hH hcn.depth hok.depth (lo := config.minLogOdds) (hi := config.maxLogOdds)
                (by have := hE.bounds; rwa [cE] at this) hlo hhi hbn
              rw [stored_threshold] at hcc
              refine ⟨hcn.height, hcn.lo, hcn.hi, rfl, ?_, ?_⟩
              · exact Rounded.recThreshold_depth hcn.depth _ _ _
              · dsimp only
                rw [hcn.lo, hcn.hi, hok.minOk, hok.maxOk]
                exact hcc
            · unfold Rounded.blockThreshold WaveletBlock.threshold
              rw [if_neg hfl, if_neg (fun e => hfl (hcn.flag.symm.trans e))]
              exact ⟨hcn.height, hcn.lo, hcn.hi, hcn.flag, hcn.depth, hcn.close.mono hst⟩
      | add i u now' =>
        have gF := modify_getBlock F i now' (fun b => Rounded.blockAdd fl b (F.nodeToCellIndex ⟨0, i⟩) u now') K
        have gE := modify_getBlock E i now' (fun b => b.addToCellValue (E.nodeToCellIndex ⟨0, i⟩) u now') K
        change (HashedWaveletWrite.runRounded F (.add i u now')).blocks.getBlock K = _ at gF
        change (HashedWaveletWrite.run E (.add i u now')).blocks.getBlock K = _ at gE
        rw [cF] at gF
        rw [cE] at gE
        refine ⟨?_, fun now => ?_⟩
        · rw [gF, gE]
          split
          · rfl
          · exact hsome
        · have hcell : F.nodeToCellIndex ⟨0, i⟩ = E.nodeToCellIndex ⟨0, i⟩ := by
            unfold HashedWaveletOctree.nodeToCellIndex; rw [cF, cE]
          dsimp only
          by_cases hk : K = indexToBlockIndex config.treeHeight i
          · rw [if_pos hk] at gF gE
            rw [if_pos ((sameBlock_iff i j).2 hk), Nat.add_zero, ← stored_add]
            have hc0 := hcl now'
            have hthE := (weak hE K now').1
            have hthE' : (E.blockOr K now').treeHeight = config.treeHeight := by
              rw [← cE]; exact hthE
            have eF : (HashedWaveletWrite.runRounded F (.add i u now')).blockOr K now
                = Rounded.blockAdd fl (F.blockOr K now') (E.nodeToCellIndex ⟨0, i⟩) u now' := by
              unfold HashedWaveletOctree.blockOr
              rw [gF, ← hcell, cF]
              rfl
            have eE : ∀ now, (HashedWaveletWrite.run E (.add i u now')).blockOr K now
                = (E.blockOr K now').addToCellValue (E.nodeToCellIndex ⟨0, i⟩) u now' := by
              intro now
              unfold HashedWaveletOctree.blockOr
              rw [gE, cE]
              rfl
            have hb2 := hb' now
            rw [eE] at hb2 ⊢
            rw [eF]
            have hpl : (nodePath config.treeHeight (E.nodeToCellIndex ⟨0, i⟩)).length ≤ config.treeHeight := by
              rw [nodeToCell_zero E hE.le, cE, nodePath_length (cellInTree (WaveletBlock.mod_range _ i))]
              simp
            unfold WaveletBlock.addToCellValue at hb2 ⊢
            unfold Rounded.blockAdd
            rw [hthE'] at hb2 ⊢
            rw [hc0.height]
            refine ⟨rfl, hc0.lo, hc0.hi, rfl, ?_, ?_⟩
            · exact roundedAddPath_depth hc0.close.ne hc0.depth _ hpl u
            · exact hc0.close.add _ u ho A hA0 hb2
          · rw [if_neg hk] at gF gE
            rw [if_neg (fun h => hk ((sameBlock_iff i j).1 h)), Nat.add_zero]
            have eF : (HashedWaveletWrite.runRounded F (.add i u now')).blockOr K now = F.blockOr K now := by
              unfold HashedWaveletOctree.blockOr
              rw [gF]; rfl
            have eE : (HashedWaveletWrite.run E (.add i u now')).blockOr K now = E.blockOr K now := by
              unfold HashedWaveletOctree.blockOr
              rw [gE]; rfl
            rw [eF, eE]
            exact hcl now
  obtain ⟨cF, cE, hE, hval, hsome, hcl, hb⟩ := inv ops hops hA
  generalize ops.foldl HashedWaveletWrite.runRounded (HashedWaveletOctree.create config) = F at cF hsome hcl ⊢
  generalize ops.foldl HashedWaveletWrite.run (HashedWaveletOctree.create config) = E at cE hE hval hsome hcl hb
  generalize ops.foldl (HashedWaveletWrite.spec config.treeHeight config.minLogOdds config.maxLogOdds) .empty = tab at hval ⊢
  have hc0 := hcl 0
  rw [← stored_read]
  have hv := blockOr_val hE j 0
  rw [cE, ← hK] at hv
  have hthE := (weak hE K 0).1
  have hthE' : (E.blockOr K 0).treeHeight = config.treeHeight := by rw [← cE]; exact hthE
  have h2 := WaveletBlock.getCellValue_eq (E.blockOr K 0) (by rw [hthE']; exact hH) j
  rw [hthE', hv, hval.1] at h2
  unfold WaveletBlock.getCellValue at h2
  rw [hthE'] at h2
  unfold Rounded.hashedValue
  rw [cF, ← hK]
  cases hFb : F.blocks.getBlock K with
  | none =>
    rw [hFb] at hsome
    have hEb : E.blocks.getBlock K = none := by
      cases h : E.blocks.getBlock K with
      | none => rfl
      | some b => rw [h] at hsome; simp at hsome
    have h0 : tab.value j = 0 := by
      rw [← hval.1, getCellValue_eq hE, cE, ← hK, hEb]
    dsimp only
    rw [h0, sub_zero, abs_zero]
    have := hc0.close.read' (by omega) hA0 (hb 0) [] (by simp)
    exact (abs_nonneg _).trans this
  | some b =>
    have hbo : F.blockOr K 0 = b := by
      unfold HashedWaveletOctree.blockOr; rw [hFb]; rfl
    rw [hbo] at hc0
    dsimp only
    unfold Rounded.blockValue
    rw [nodeToCell_zero F (by rw [cF]; exact hH), cF, hc0.height, ← h2]
    apply hc0.close.read' (by omega) hA0 (hb 0)
    rw [nodePath_length (cellInTree (WaveletBlock.mod_range _ j))]
    simp

/-- C80 (size of the drift with thresholding): linear in the number of updates and thresholdings. -/
theorem C80_driftT_linear (A : ℚ) (hA : 0 ≤ A) (H N T : Nat) (h : N * (7 * H + 1) + T * (128 * H) ≤ 2 ^ 19) (hH : H ≤ 20) :
    driftT A H N T ≤ A * (8 * N * (H + 1) + 144 * T * H + 62 * H) / 2 ^ 24 := by
  have h1 : (N : ℚ) * (7 * H + 1) + T * (128 * H) ≤ 2 ^ 19 := by exact_mod_cast h
  have hN0 : (0 : ℚ) ≤ N := by positivity
  have hT0 : (0 : ℚ) ≤ T := by positivity
  have hH' : (H : ℚ) ≤ 20 := by exact_mod_cast hH
  have hH0 : (0 : ℚ) ≤ H := by positivity
  have hNH : 0 ≤ (N : ℚ) * H := by positivity
  have hTH : 0 ≤ (T : ℚ) * H := by positivity
  have h2 := pow_le_linear (x := (7 * (H : ℚ) + 1) / 2 ^ 24) (by positivity) N (by rw [← mul_div_assoc, div_le_iff₀ (by norm_num)]; nlinarith)
  have h3 := pow_le_linear (x := 128 * (H : ℚ) / 2 ^ 24) (by positivity) T (by rw [← mul_div_assoc, div_le_iff₀ (by norm_num)]; nlinarith)
  unfold driftT
  rw [mul_div_assoc A]
  apply mul_le_mul_of_nonneg_left _ hA
  have h4 := mul_le_mul h2 h3 (by positivity) (by positivity)
  have h5 := mul_le_mul_of_nonneg_right h4 (by positivity : (0 : ℚ) ≤ 1 + 57 * H / 2 ^ 24)
  refine (sub_le_sub_right h5 1).trans ?_
  -- x and y are the two relative errors
  obtain ⟨x, hx⟩ : ∃ x : ℚ, x = N * ((7 * H + 1) / 2 ^ 24) := ⟨_, rfl⟩
  obtain ⟨y, hy⟩ : ∃ y : ℚ, y = T * (128 * H / 2 ^ 24) := ⟨_, rfl⟩
  obtain ⟨z, hz⟩ : ∃ z : ℚ, z = 57 * H / 2 ^ 24 := ⟨_, rfl⟩
  rw [← hx, ← hy, ← hz]
  have hx0 : 0 ≤ x := by rw [hx]; positivity
  have hy0 : 0 ≤ y := by rw [hy]; positivity
  have hz0 : 0 ≤ z := by rw [hz]; positivity
  have hxy : x + y ≤ 1 / 32 := by
    rw [hx, hy, ← mul_div_assoc, ← mul_div_assoc, ← add_div, div_le_iff₀ (by norm_num)]; linarith
  have hz1 : z ≤ 1 / 10000 := by rw [hz, div_le_iff₀ (by norm_num)]; linarith
  have e : (8 * (N : ℚ) * (H + 1) + 144 * T * H + 62 * H) / 2 ^ 24 ≥ 9 / 8 * (x + y) + 61 / 57 * z := by
    rw [hx, hy, hz, ge_iff_le, le_div_iff₀ (by norm_num)]
    have : (9 / 8 * ((N : ℚ) * ((7 * H + 1) / 2 ^ 24) + T * (128 * H / 2 ^ 24)) + 61 / 57 * (57 * H / 2 ^ 24)) * 2 ^ 24
        = 9 / 8 * (N * (7 * H + 1) + T * (128 * H)) + 61 * H := by ring
    rw [this]
    nlinarith
  refine le_trans ?_ e
  nlinarith [mul_nonneg hx0 hy0, mul_nonneg hx0 hz0, mul_nonneg hy0 hz0, mul_nonneg (mul_nonneg hx0 hy0) hz0, mul_le_mul hxy hz1 hz0 (by norm_num)]

/-! ## Hashed blocks -/

/-- The operation on the map in single precision. -/
def HashedBlocksOp.runRounded (m : HashedBlocks) : HashedBlocksOp → HashedBlocks
  | .add i u => Rounded.hashedBlocksAdd fl m i u
  | o => o.run m

/-- The number of updates of a cell. -/
def updatesOfCell (ops : List HashedBlocksOp) (j : Index 3) : Nat := (ops.filter fun o => match o with | .add i _ => decide (i = j) | _ => false).length

/-- The operation does not use numbers above `M` as values or above `U` as updates. -/
def HashedBlocksOp.Within (M U : ℚ) : HashedBlocksOp → Prop
  | .set _ v => |v| ≤ M
  | .add _ u => |u| ≤ U
  | _ => True

theorem clamp_diff {lo hi : ℚ} (h : lo ≤ hi) (x y : ℚ) : |clamp lo hi x - clamp lo hi y| ≤ |x - y| := by
  rw [clamp_eq h, clamp_eq h]
  rw [abs_le]
  have h1 := le_abs_self (x - y)
  have h2 := neg_abs_le (x - y)
  rcases max_cases lo (min x hi) with a | a <;> rcases max_cases lo (min y hi) with b | b <;>
    rcases min_cases x hi with c | c <;> rcases min_cases y hi with d | d <;> constructor <;> linarith [a.1, a.2, b.1, b.2, c.1, c.2, d.1, d.2]

theorem clamp_within {lo hi M : ℚ} (h : lo ≤ hi) (hlo : |lo| ≤ M) (hhi : |hi| ≤ M) (x : ℚ) : |clamp lo hi x| ≤ M := by
  rw [clamp_eq h]
  rw [abs_le] at hlo hhi ⊢
  constructor
  · exact hlo.1.trans (le_max_left _ _)
  · exact max_le hlo.2 ((min_le_right _ _).trans hhi.2)

theorem runRounded_value (m : HashedBlocks) (hw : m.Wf) (o : HashedBlocksOp) (j : Index 3) :
    (o.runRounded m).Wf ∧ (o.runRounded m).config = m.config ∧ (o.runRounded m).hash.defaultValue = m.hash.defaultValue ∧
      (o.runRounded m).getCellValue j = match o with
        | .set i v => if j = i then v else m.getCellValue j
        | .add i u => if j = i then clamp m.config.minLogOdds m.config.maxLogOdds (fl (m.getCellValue j + u)) else m.getCellValue j
        | .clear => m.hash.defaultValue
        | _ => m.getCellValue j := by
  cases o with
  | add i u =>
    refine ⟨DenseBlockHash.Wf.run (m := m.hash) hw (.update i _), rfl, rfl, ?_⟩
    have := (DenseBlockHash.run_spec (by decide) m.hash
      (.update i fun v => clamp m.config.minLogOdds m.config.maxLogOdds (fl (v + u))) j).1
    simp only [BlockHashOp.spec] at this
    refine Eq.trans this ?_
    by_cases h : j = i
    · subst h; rw [if_pos rfl]; exact (if_pos rfl).symm
    · rw [if_neg h]; exact (if_neg h).symm
  | set i v =>
    exact ⟨HashedBlocks.Wf.run hw (.set i v), rfl, rfl, (DenseBlockHash.run_spec (by decide) m.hash (.update i fun _ => v) j).1⟩
  | threshold => exact ⟨hw, rfl, rfl, rfl⟩
  | prune => exact ⟨HashedBlocks.Wf.run hw .prune, rfl, rfl, HashedBlocks.getCellValue_prune hw j⟩
  | clear => exact ⟨HashedBlocks.Wf.run hw .clear, rfl, rfl, rfl⟩

/-- C80 (hashed blocks): after any history, the value of a cell in single precision differs from the value with exact arithmetic by at most one rounding error for each
update of this cell. -/
theorem C80_hashed_blocks (config : MapBaseConfig) (hc : config.isValid = true) (dv M U : ℚ) (hdv : |dv| ≤ M)
    (hlo : |config.minLogOdds| ≤ M) (hhi : |config.maxLogOdds| ≤ M) (hU : 0 ≤ U) (ops : List HashedBlocksOp) (hops : ∀ o ∈ ops, o.Within M U) (j : Index 3) :
    |(ops.foldl HashedBlocksOp.runRounded (HashedBlocks.create config dv)).getCellValue j
      - (ops.foldl HashedBlocksOp.run (HashedBlocks.create config dv)).getCellValue j| ≤ updatesOfCell ops j * ((M + U) / 2 ^ 24) := by
  have hlt : config.minLogOdds ≤ config.maxLogOdds := by
    simp only [MapBaseConfig.isValid, Bool.and_eq_true, decide_eq_true_eq] at hc; exact hc.2.le
  have hM : 0 ≤ M := (abs_nonneg _).trans hdv
  have hMU : 0 ≤ (M + U) / 2 ^ 24 := by positivity
  suffices key : ∀ (ops : List HashedBlocksOp), (∀ o ∈ ops, o.Within M U) →
      let F := ops.foldl HashedBlocksOp.runRounded (HashedBlocks.create config dv)
      let E := ops.foldl HashedBlocksOp.run (HashedBlocks.create config dv)
      F.Wf ∧ E.Wf ∧ F.config = config ∧ E.config = config ∧ F.hash.defaultValue = dv ∧ E.hash.defaultValue = dv ∧ |F.getCellValue j| ≤ M ∧
        |F.getCellValue j - E.getCellValue j| ≤ updatesOfCell ops j * ((M + U) / 2 ^ 24) from (key ops hops).2.2.2.2.2.2.2
  intro ops
  induction ops using List.reverseRecOn with
  | nil =>
    intro _
    refine ⟨List.nodup_nil, List.nodup_nil, rfl, rfl, rfl, rfl, hdv, ?_⟩
    simp [updatesOfCell]
  | append_singleton ops o ih =>
    intro hops
    obtain ⟨wF, wE, cF, cE, dF, dE, hv, he⟩ := ih fun o' h => hops o' (by simp [h])
    have ho := hops o (by simp)
    simp only [List.foldl_append, List.foldl_cons, List.foldl_nil]
    generalize ops.foldl HashedBlocksOp.runRounded (HashedBlocks.create config dv) = F at wF cF dF hv he ⊢
    generalize ops.foldl HashedBlocksOp.run (HashedBlocks.create config dv) = E at wE cE dE he ⊢
    obtain ⟨wF', cF', dF', vF⟩ := runRounded_value F wF o j
    have vE := HashedBlocks.run_spec wE (by rw [cE]; exact hlt) o j
    refine ⟨wF', wE.run o, cF'.trans cF, (HashedBlocks.run_config E o).1.trans cE, dF'.trans dF, (HashedBlocks.run_config E o).2.trans dE, ?_⟩
    have hn : (updatesOfCell (ops ++ [o]) j : ℚ) = updatesOfCell ops j + (match o with | .add i _ => if i = j then 1 else 0 | _ => 0) := by
      unfold updatesOfCell
      rw [List.filter_append, List.length_append]
      push_cast
      congr 1
      cases o with
      | add i u => by_cases h : i = j <;> simp [h]
      | _ => rfl
    rw [vF, vE, hn]
    cases o with
    | set i v =>
      simp only [HashedBlocksOp.spec, add_zero]
      by_cases h : j = i
      · rw [if_pos h, if_pos h, sub_self, abs_zero]
        exact ⟨ho, by positivity⟩
      · rw [if_neg h, if_neg h]; exact ⟨hv, he⟩
    | threshold => simp only [HashedBlocksOp.spec, add_zero]; exact ⟨hv, he⟩
    | prune => simp only [HashedBlocksOp.spec, add_zero]; exact ⟨hv, he⟩
    | clear =>
      simp only [HashedBlocksOp.spec, add_zero]
      rw [dF, dE, sub_self, abs_zero]
      exact ⟨hdv, by positivity⟩
    | add i u =>
      simp only [HashedBlocksOp.spec]
      by_cases h : j = i
      · subst h
        rw [if_pos rfl, if_pos rfl, if_pos rfl, cF, cE, ← clamp_eq hlt]
        refine ⟨clamp_within hlt hlo hhi _, (clamp_diff hlt _ _).trans ?_⟩
        have h1 := fl_err (F.getCellValue j + u)
        have h2 : |F.getCellValue j + u| / 2 ^ 24 ≤ (M + U) / 2 ^ 24 := by
          apply div_le_div_of_nonneg_right _ (by norm_num)
          exact (abs_add_le _ _).trans (add_le_add hv ho)
        have e : fl (F.getCellValue j + u) - (E.getCellValue j + u) = (fl (F.getCellValue j + u) - (F.getCellValue j + u)) + (F.getCellValue j - E.getCellValue j) := by ring
        rw [e]
        refine (abs_add_le _ _).trans ((add_le_add (h1.trans h2) he).trans (le_of_eq (by ring)))
      · rw [if_neg h, if_neg h, if_neg (fun e => h e.symm), add_zero]
        exact ⟨hv, he⟩

/-- C80 (hashed blocks): an update never moves a cell the wrong way, and values never leave the bounds. -/
theorem C80_hashed_blocks_monotone (m : HashedBlocks) (hw : m.Wf) (hc : m.config.isValid = true) (i : Index 3) (u : ℚ)
    (hv : IsFloat (m.getCellValue i)) (hb : m.config.minLogOdds ≤ m.getCellValue i ∧ m.getCellValue i ≤ m.config.maxLogOdds) :
    (0 ≤ u → m.getCellValue i ≤ (Rounded.hashedBlocksAdd fl m i u).getCellValue i) ∧
    (u ≤ 0 → (Rounded.hashedBlocksAdd fl m i u).getCellValue i ≤ m.getCellValue i) ∧
    m.config.minLogOdds ≤ (Rounded.hashedBlocksAdd fl m i u).getCellValue i ∧ (Rounded.hashedBlocksAdd fl m i u).getCellValue i ≤ m.config.maxLogOdds := by
  have hlt : m.config.minLogOdds ≤ m.config.maxLogOdds := by
    simp only [MapBaseConfig.isValid, Bool.and_eq_true, decide_eq_true_eq] at hc; exact hc.2.le
  have h := (runRounded_value m hw (.add i u) i).2.2.2
  simp only [HashedBlocksOp.runRounded, if_true] at h
  rw [h, clamp_eq hlt]
  have e := fl_of_isFloat hv
  refine ⟨fun hu => ?_, fun hu => ?_, le_max_left _ _, max_le hlt (min_le_right _ _)⟩
  · have := fl_mono (by linarith : m.getCellValue i ≤ m.getCellValue i + u)
    rw [e] at this
    exact (le_min this hb.2).trans (le_max_right _ _)
  · have := fl_mono (by linarith : m.getCellValue i + u ≤ m.getCellValue i)
    rw [e] at this
    exact max_le hb.1 ((min_le_left _ _).trans this)

/-! ## Where single precision differs -/

/-- C80 fails without an allowance for rounding: the order of updates matters. -/
theorem C80_order_fails :
    (([.add (fun _ => 0) 1, .add (fun _ => 0) (1 / 2 ^ 24), .add (fun _ => 0) (1 / 2 ^ 24)] : List HashedBlocksOp).foldl HashedBlocksOp.runRounded
        (HashedBlocks.create ⟨1, -2, 4⟩ 0)).getCellValue (fun _ => 0) = 1 ∧
    (([.add (fun _ => 0) (1 / 2 ^ 24), .add (fun _ => 0) (1 / 2 ^ 24), .add (fun _ => 0) 1] : List HashedBlocksOp).foldl HashedBlocksOp.runRounded
        (HashedBlocks.create ⟨1, -2, 4⟩ 0)).getCellValue (fun _ => 0) = 1 + 1 / 2 ^ 23 := by
  constructor <;> decide +kernel

/-- C80 fails without an allowance for each update: updates of a cell that are small compared to its value are lost, however many there are. -/
theorem C80_lost_updates_fails (n : Nat) :
    ((List.replicate n (HashedBlocksOp.add (fun _ => 0) (1 / 2 ^ 24))).foldl HashedBlocksOp.runRounded
      (Rounded.hashedBlocksAdd fl (HashedBlocks.create ⟨1, -2, 4⟩ 0) (fun _ => 0) 1)).getCellValue (fun _ => 0) = 1 := by
  suffices key : ∀ m : HashedBlocks, m.Wf → m.config = ⟨1, -2, 4⟩ → m.getCellValue (fun _ => 0) = 1 →
      ((List.replicate n (HashedBlocksOp.add (fun _ => 0) (1 / 2 ^ 24))).foldl HashedBlocksOp.runRounded m).getCellValue (fun _ => 0) = 1 by
    apply key
    · exact DenseBlockHash.Wf.run (m := (HashedBlocks.create ⟨1, -2, 4⟩ 0).hash) List.nodup_nil (.update _ _)
    · rfl
    · decide +kernel
  induction n with
  | zero => intro m _ _ h; exact h
  | succ n ih =>
    intro m hw hcfg h
    rw [List.replicate_succ, List.foldl_cons]
    obtain ⟨w, c, _, v⟩ := runRounded_value m hw (.add (fun _ => 0) (1 / 2 ^ 24)) (fun _ => 0)
    apply ih _ w (c.trans hcfg)
    rw [v]
    simp only [if_true]
    rw [h, hcfg]
    decide +kernel

/-- C80 fails for cells that were never updated: in a wavelet octree, rounding the updates of their neighbours changes them. Their exact value is 0. -/
theorem C80_untouched_fails :
    let ops : List (NdtreeIndex 3 × ℚ) := [(⟨0, fun _ => 0⟩, 1), (⟨0, fun _ => 1⟩, 1 + 1 / 2 ^ 23)]
    let i : Index 3 := ![1, 0, 0]
    added ops i = 0 ∧
      Rounded.getCellValue fl (ops.foldl (fun m o => Rounded.addToNodeValue fl m o.1 o.2) (WaveletOctree.create ⟨1, -2, 4, 2⟩)) i = -(1 / 2 ^ 26) := by
  decide +kernel

/-! ## The hypotheses can be met -/

/-- A map of height 8 with cells updated up to log-odds of ±4: a hundred updates move no cell by more than 0.002. -/
example : drift 4 8 100 ≤ 2 / 1000 := by
  refine (C80_drift_linear 4 (by norm_num) 8 100 (by norm_num) (by norm_num)).trans ?_
  norm_num

example : let ops : List (NdtreeIndex 3 × ℚ) := [(⟨0, fun _ => 0⟩, 1), (⟨1, fun _ => -1⟩, -3 / 4)]
    (∀ o ∈ ops, NodeInMap 4 o.1 ∧ IsFloat o.2) ∧ ∀ k i, CellInMap 4 i → |added (ops.take k) i| ≤ 1 := by
  have hr : ∀ i : Index 3, ¬ (NodeRegion (⟨0, fun _ => 0⟩ : NdtreeIndex 3) i ∧ NodeRegion (⟨1, fun _ => -1⟩ : NdtreeIndex 3) i) := by
    rintro i ⟨h1, h2⟩
    have a := h1 0; have b := h2 0
    simp at a b; omega
  refine ⟨?_, ?_⟩
  · intro o ho
    simp only [List.mem_cons, List.not_mem_nil, or_false] at ho
    rcases ho with rfl | rfl
    · exact ⟨by unfold NodeInMap; decide, ⟨1, 0, by norm_num, by norm_num⟩⟩
    · exact ⟨by unfold NodeInMap; decide, ⟨-3, -2, by norm_num, by norm_num⟩⟩
  · intro k i _
    have h := hr i
    rcases k with _ | _ | _ | k <;> unfold added <;>
      by_cases h1 : NodeRegion (⟨0, fun _ => 0⟩ : NdtreeIndex 3) i <;> by_cases h2 : NodeRegion (⟨1, fun _ => -1⟩ : NdtreeIndex 3) i <;>
      simp_all <;> norm_num [abs_of_nonneg, abs_of_neg]

/-- A hundred updates in a block and a hundred thresholdings move no cell by more than 0.03. -/
example : driftT 4 8 100 100 ≤ 3 / 100 := by
  refine (C80_driftT_linear 4 (by norm_num) 8 100 100 (by norm_num) (by norm_num)).trans ?_
  norm_num

example : let ops : List HashedWaveletWrite := [.add (fun _ => 0) 3 0, .threshold, .add (fun _ => 1) (-1) 0]
    (∀ o ∈ ops, o.IsUpdate) ∧ (⟨1, -2, 2, 3, 10⟩ : HashedWaveletOctreeConfig).isValid = true ∧
      ∀ k i, |((ops.take k).foldl (HashedWaveletWrite.spec 3 (-2) 2) .empty).value i| ≤ 4 := by
  refine ⟨?_, by decide +kernel, ?_⟩
  · intro o ho
    simp only [List.mem_cons, List.not_mem_nil, or_false] at ho
    rcases ho with rfl | rfl | rfl
    · exact ⟨3, 0, by norm_num, by norm_num⟩
    · trivial
    · exact ⟨-1, 0, by norm_num, by norm_num⟩
  · intro k i
    have hne : ¬ ((fun _ => 0 : Index 3) = fun _ => 1) := fun h => by have := congrFun h 0; simp at this
    have hne' : ¬ ((fun _ => 1 : Index 3) = fun _ => 0) := fun h => hne h.symm
    rcases k with _ | _ | _ | k <;> by_cases h0 : i = (fun _ => 0) <;> by_cases h1 : i = (fun _ => 1) <;> by_cases h2 : SameBlock 3 (fun _ => 0) i <;>
      simp_all [HashedWaveletWrite.spec, CellTable.empty] <;> norm_num [abs_of_nonneg, abs_of_neg]

example : (HashedBlocksOp.add (fun _ => 3) (-1 / 4)).Within 4 1 ∧ (⟨1, -2, 4⟩ : MapBaseConfig).isValid = true ∧ IsFloat (7 / 8) := by
  refine ⟨by norm_num [HashedBlocksOp.Within, abs_of_neg], by decide +kernel, ⟨7, -3, by norm_num, by norm_num⟩⟩

/-- Two updates in one block and one in another. -/
example : let ops : List (Index 3 × ℚ × ℚ) := [((fun _ => 0), 3, 0), ((fun _ => 1), -1, 0), ((fun _ => 20), 2, 1)]
    (⟨1, -2, 2, 3, 10⟩ : HashedWaveletOctreeConfig).isValid = true ∧ (∀ o ∈ ops, IsFloat o.2.1) ∧ (∀ k i, |addedToCell (ops.take k) i| ≤ 6) ∧
    updatesInBlock 3 ops (fun _ => 2) = 2 ∧ addedToCell ops (fun _ => 1) = -1 := by
  refine ⟨by decide +kernel, ?_, ?_, by decide +kernel, by decide +kernel⟩
  · intro o ho
    simp only [List.mem_cons, List.not_mem_nil, or_false] at ho
    rcases ho with rfl | rfl | rfl
    · exact ⟨3, 0, by norm_num, by norm_num⟩
    · exact ⟨-1, 0, by norm_num, by norm_num⟩
    · exact ⟨2, 0, by norm_num, by norm_num⟩
  · intro k i
    rcases k with _ | _ | _ | k <;> by_cases h0 : (fun _ => 0) = i <;> by_cases h1 : (fun _ => 1) = i <;> by_cases h2 : (fun _ => 20) = i <;>
      simp [addedToCell, h0, h1, h2, abs_le] <;> norm_num

end Wavemap
