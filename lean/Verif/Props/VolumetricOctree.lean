import Verif.Lemmas.VolumetricOctree
import Verif.Props.WaveletMaintenance
/-!
# C24, C23, C21, C56 – the volumetric octree

The specification is a plain table `Index 3 → ℚ` of cell values; `prune` and `threshold` clamp the table.
-/
namespace Wavemap
open NTree NdtreeIndex

/-! ## Specification -/

/-- Operations of a user on cells. -/
inductive VolOp where
  | set (i : Index 3) (v : ℚ)
  | add (i : Index 3) (u : ℚ)
  | clear
  | prune
  | threshold

/-- The operation on the modelled map. -/
def VolOp.run (m : VolumetricOctree) : VolOp → VolumetricOctree
  | .set i v => m.setCellValue i v
  | .add i u => m.addToCellValue i u
  | .clear => m.clear
  | .prune => m.prune
  | .threshold => m.threshold

/-- The operation on a plain table. -/
def VolOp.spec (lo hi : ℚ) (f : Index 3 → ℚ) : VolOp → Index 3 → ℚ
  | .set i v => fun j => if j = i then v else f j
  | .add i u => fun j => if j = i then f i + u else f j
  | .clear => fun _ => 0
  | .prune => fun j => clamp lo hi (f j)
  | .threshold => fun j => clamp lo hi (f j)

/-- Whether the octree stores a node for this very cell (rather than a coarser one that covers it). -/
def VolumetricOctree.HasCell (m : VolumetricOctree) (i : Index 3) : Prop :=
  (m.root.descend (nodePath m.config.treeHeight (m.toInternalCell i))).isNil = false

/-- Clamped cell values of a table that are not equal differ by more than `kEpsilon`. -/
def Separated (H : Nat) (lo hi : ℚ) (f : Index 3 → ℚ) : Prop :=
  ∀ i j, CellInMap H i → CellInMap H j → |clamp lo hi (f i) - clamp lo hi (f j)| ≤ kEpsilon →
    clamp lo hi (f i) = clamp lo hi (f j)

/-- Operations the theorem below covers in a state `m`: writes to cells that either have their own node or read
zero, and pruning when the values are separated. -/
def VolOp.Ok (m : VolumetricOctree) : VolOp → Prop
  | .set i _ => CellInMap m.config.treeHeight i ∧ (m.getCellValue i = 0 ∨ m.HasCell i)
  | .add i _ => CellInMap m.config.treeHeight i ∧ (m.getCellValue i = 0 ∨ m.HasCell i)
  | .clear => True
  | .prune => Separated m.config.treeHeight m.config.minLogOdds m.config.maxLogOdds m.getCellValue
  | .threshold => Separated m.config.treeHeight m.config.minLogOdds m.config.maxLogOdds m.getCellValue

/-- Every operation of the history is covered in the state in which it runs. -/
def VolOp.AllOk : VolumetricOctree → List VolOp → Prop
  | _, [] => True
  | m, o :: ops => o.Ok m ∧ VolOp.AllOk (o.run m) ops

/-! ## Helper lemmas -/

namespace VolumetricOctree

theorem rootIndexOffset_eq' (m : VolumetricOctree) (hH : 0 < m.config.treeHeight) (k : Fin 3) :
    m.rootIndexOffset k = 2 ^ (m.config.treeHeight - 1) := by
  have : ((m.config.treeHeight : Int) - 1).toNat = m.config.treeHeight - 1 := by omega
  simp [rootIndexOffset, nodeIndexToMinCornerIndex, multExp2_eq, this]

/-- What is true of every map built with a valid height. -/
structure Inv (m : VolumetricOctree) : Prop where
  pos : 0 < m.config.treeHeight
  le : m.config.treeHeight ≤ 20
  root : m.root ≠ .nil

variable {m : VolumetricOctree}

theorem path_read (h : m.Inv) {i : Index 3} (hi : CellInMap m.config.treeHeight i) :
    nodePath m.config.treeHeight (m.toInternalCell i) = WaveletOctree.cpath m.config.treeHeight i := by
  unfold toInternalCell WaveletOctree.cpath
  rw [indexAndHeight_zero]
  simp only [rootIndexOffset_eq' m h.pos]
  exact nodePath_cell h.le (WaveletOctree.shift_range h.pos hi)

theorem path_write (h : m.Inv) {i : Index 3} (hi : CellInMap m.config.treeHeight i) :
    nodePath m.config.treeHeight (m.toInternal (indexAndHeightToNodeIndex i 0)) = WaveletOctree.cpath m.config.treeHeight i := by
  unfold toInternal WaveletOctree.cpath
  rw [indexAndHeight_zero]
  simp only [rootIndexOffset_eq' m h.pos, Int.toNat_zero, divExp2Floor_eq, pow_zero, Int.ediv_one]
  exact nodePath_cell h.le (WaveletOctree.shift_range h.pos hi)

theorem getCellValue_eq (h : m.Inv) {i : Index 3} (hi : CellInMap m.config.treeHeight i) :
    m.getCellValue i = m.root.read (WaveletOctree.cpath m.config.treeHeight i) := by
  unfold getCellValue getDeepestNodeAtIndex
  rw [path_read h hi]; rfl

theorem write_root (h : m.Inv) {i : Index 3} (hi : CellInMap m.config.treeHeight i) (g : ℚ → ℚ) :
    (m.writeNode (indexAndHeightToNodeIndex i 0) g).root
      = VTree.write g m.root (WaveletOctree.cpath m.config.treeHeight i) := by
  unfold writeNode
  simp only
  rw [path_write h hi]; rfl

theorem cpath_injective {H : Nat} (hpos : 0 < H) (hH : H ≤ 20) {i j : Index 3} (hi : CellInMap H i) (hj : CellInMap H j) :
    WaveletOctree.cpath H i = WaveletOctree.cpath H j ↔ i = j := by
  constructor
  · intro e
    unfold WaveletOctree.cpath at e
    rw [← nodePath_cell hH (WaveletOctree.shift_range hpos hi), ← nodePath_cell hH (WaveletOctree.shift_range hpos hj)] at e
    have hin : ∀ {i}, CellInMap H i → NodeInTree H (⟨0, fun k => i k + 2 ^ (H - 1)⟩ : NdtreeIndex 3) := by
      intro i hi
      refine ⟨by simp, by simp, fun k => ?_⟩
      have := WaveletOctree.shift_range hpos hi k
      simpa using this
    have := (nodePath_injective (by decide) (H := H) (by simpa [maxTreeHeight] using hH) (hin hi) (hin hj)).1 e
    funext k
    have := congrFun (congrArg NdtreeIndex.position this) k
    simp only at this
    omega
  · rintro rfl; rfl

theorem cpath_surjective {H : Nat} (hpos : 0 < H) (hH : H ≤ 20) (p : List (Fin (2 ^ 3))) (hp : p.length = H) :
    ∃ i, CellInMap H i ∧ WaveletOctree.cpath H i = p := by
  have h1 := nodePath_indexOfPath (d := 3) (by decide) (H := H) (by simpa [maxTreeHeight] using hH) p (by omega)
  have h2 := indexOfPath_inTree H p (by omega)
  have h3 := indexOfPath_height H p
  generalize indexOfPath H p = n at h1 h2 h3
  obtain ⟨ht, pos⟩ := n
  simp only at h3
  have h0 : ht = 0 := by omega
  subst h0
  refine ⟨fun k => pos k - 2 ^ (H - 1), fun k => ?_, ?_⟩
  · have := h2.2.2 k
    simp only [Int.toNat_zero, Nat.sub_zero] at this
    have e := two_pow_double (a := H) (b := H - 1) (by omega)
    simp only
    omega
  · unfold WaveletOctree.cpath
    have : (fun k => pos k - 2 ^ (H - 1) + 2 ^ (H - 1)) = pos := by funext k; omega
    rw [this, ← h1]
    refine (nodePath_cell hH fun k => ?_).symm
    have := h2.2.2 k
    simpa using this

theorem fresh_iff (t : VTree) (p) : VTree.Fresh t p ↔ VTree.read t p = 0 ∨ (t.descend p).isNil = false ∨ t = .nil := by
  induction p generalizing t with
  | nil =>
    simp only [VTree.Fresh, true_iff, NTree.descend]
    cases t <;> simp [NTree.isNil]
  | cons i p ih =>
    simp only [VTree.Fresh, VTree.read_cons, NTree.descend]
    by_cases hn : (t.child i).isNil = true
    · rw [if_pos hn, if_pos hn, VTree.isNil_true hn, NTree.nil_descend]
      simp only [NTree.isNil, Bool.true_eq_false, false_or]
      constructor
      · exact Or.inl
      · rintro (h | rfl)
        · exact h
        · rfl
    · rw [if_neg hn, if_neg hn, ih]
      have h1 : t.child i ≠ .nil := by intro e; rw [e] at hn; exact hn rfl
      have h2 : t ≠ .nil := by rintro rfl; exact hn rfl
      simp [h1, h2]

theorem fresh_of (h : m.Inv) {i : Index 3} (hi : CellInMap m.config.treeHeight i) (hw : m.getCellValue i = 0 ∨ m.HasCell i) :
    m.root.Fresh (WaveletOctree.cpath m.config.treeHeight i) := by
  rw [fresh_iff]
  rcases hw with hw | hw
  · left; rw [← getCellValue_eq h hi]; exact hw
  · right; left
    unfold HasCell at hw
    rwa [path_read h hi] at hw

/-- Cell writes do what they say. -/
theorem write_get (h : m.Inv) {i : Index 3} (hi : CellInMap m.config.treeHeight i) (hf : m.root.Fresh (WaveletOctree.cpath m.config.treeHeight i))
    (g : ℚ → ℚ) {j : Index 3} (hj : CellInMap m.config.treeHeight j) :
    (m.writeNode (indexAndHeightToNodeIndex i 0) g).getCellValue j
      = if j = i then g (m.getCellValue i) else m.getCellValue j := by
  have hinv : (m.writeNode (indexAndHeightToNodeIndex i 0) g).Inv :=
    ⟨h.pos, h.le, by rw [write_root h hi]; exact VTree.write_ne_nil _ _ h.root _⟩
  rw [getCellValue_eq hinv (by exact hj), write_root h hi]
  have hc : (m.writeNode (indexAndHeightToNodeIndex i 0) g).config = m.config := rfl
  rw [hc, VTree.read_write g m.root h.root _ _ (by unfold WaveletOctree.cpath; rw [cellPath_length, cellPath_length]) hf,
    getCellValue_eq h hi, getCellValue_eq h hj]
  simp only [cpath_injective h.pos h.le hj hi]

/-- Maps in which coarse nodes with children hold zero. -/
structure Regular (m : VolumetricOctree) : Prop extends m.Inv where
  clean : VTree.Clean m.config.treeHeight m.root

theorem Regular.write (h : m.Regular) {i : Index 3} (hi : CellInMap m.config.treeHeight i)
    (hf : m.root.Fresh (WaveletOctree.cpath m.config.treeHeight i)) (g : ℚ → ℚ) :
    (m.writeNode (indexAndHeightToNodeIndex i 0) g).Regular := by
  refine ⟨⟨h.pos, h.le, ?_⟩, ?_⟩
  · rw [write_root h.toInv hi]; exact VTree.write_ne_nil _ _ h.root _
  · rw [write_root h.toInv hi]
    exact VTree.Clean.write h.root h.clean g _ (cellPath_length _ _) hf

theorem Regular.clear (h : m.Regular) : m.clear.Regular :=
  ⟨⟨h.pos, h.le, by simp [VolumetricOctree.clear]⟩, VTree.clean_leaf _ _⟩

theorem Regular.prune (h : m.Regular) : m.prune.Regular :=
  ⟨⟨h.pos, h.le, VTree.prune_ne_nil _ _ h.root⟩, VTree.Clean.prune h.clean⟩

theorem create_regular {config : VolumetricOctreeConfig} (hpos : 0 < config.treeHeight) (hH : config.treeHeight ≤ 20) :
    (create config).Regular :=
  ⟨⟨hpos, hH, by simp [create]⟩, VTree.clean_leaf _ _⟩

theorem create_get {config : VolumetricOctreeConfig} (i : Index 3) : (create config).getCellValue i = 0 :=
  VTree.read_leaf 0 _

theorem clear_get (i : Index 3) : m.clear.getCellValue i = 0 := VTree.read_leaf 0 _

theorem prune_get (h : m.Regular) (h0 : m.config.minLogOdds ≤ 0) (h1 : 0 ≤ m.config.maxLogOdds)
    (hs : Separated m.config.treeHeight m.config.minLogOdds m.config.maxLogOdds m.getCellValue) {j : Index 3}
    (hj : CellInMap m.config.treeHeight j) :
    m.prune.getCellValue j = clamp m.config.minLogOdds m.config.maxLogOdds (m.getCellValue j) := by
  rw [getCellValue_eq h.prune.toInv (by exact hj), getCellValue_eq h.toInv hj]
  refine VTree.read_prune_exact h0 h1 _ _ h.root h.clean ?_ _ (cellPath_length _ _)
  intro p q hp hq hle
  obtain ⟨a, ha, rfl⟩ := cpath_surjective h.pos h.le p hp
  obtain ⟨b, hb, rfl⟩ := cpath_surjective h.pos h.le q hq
  have := hs a b ha hb
  rw [getCellValue_eq h.toInv ha, getCellValue_eq h.toInv hb] at this
  exact this hle

theorem run_config (m : VolumetricOctree) (o : VolOp) : (o.run m).config = m.config := by cases o <;> rfl

theorem Regular.run (h : m.Regular) (o : VolOp) (ho : o.Ok m) : (o.run m).Regular := by
  cases o with
  | set i v => exact h.write ho.1 (fresh_of h.toInv ho.1 ho.2) fun _ => v
  | add i u => exact h.write ho.1 (fresh_of h.toInv ho.1 ho.2) fun x => x + u
  | clear => exact h.clear
  | prune => exact h.prune
  | threshold => exact h.prune

theorem Regular.get (h : m.Regular) (h0 : m.config.minLogOdds ≤ 0) (h1 : 0 ≤ m.config.maxLogOdds) (o : VolOp) (ho : o.Ok m)
    (f : Index 3 → ℚ) (hf : ∀ j, CellInMap m.config.treeHeight j → m.getCellValue j = f j) (j : Index 3)
    (hj : CellInMap m.config.treeHeight j) :
    (o.run m).getCellValue j = o.spec m.config.minLogOdds m.config.maxLogOdds f j := by
  cases o with
  | set i v =>
    simp only [VolOp.run, VolOp.spec, setCellValue, setNodeValue]
    rw [write_get h.toInv ho.1 (fresh_of h.toInv ho.1 ho.2) _ hj, hf j hj]
  | add i u =>
    simp only [VolOp.run, VolOp.spec, addToCellValue, addToNodeValue]
    rw [write_get h.toInv ho.1 (fresh_of h.toInv ho.1 ho.2) _ hj, hf j hj, hf i ho.1]
  | clear => exact clear_get j
  | prune =>
    simp only [VolOp.run, VolOp.spec]
    rw [prune_get h h0 h1 ho hj, hf j hj]
  | threshold =>
    simp only [VolOp.run, VolOp.spec, threshold]
    rw [prune_get h h0 h1 ho hj, hf j hj]

theorem Regular.runAll (h : m.Regular) (ops : List VolOp) (ho : VolOp.AllOk m ops) : (ops.foldl VolOp.run m).Regular := by
  induction ops generalizing m with
  | nil => exact h
  | cons o ops ih => exact ih (h.run o ho.1) ho.2

end VolumetricOctree

/-! ## C24 -/

/-- C24: after any history of cell writes, clears and prunes that satisfies `AllOk`, reading a cell returns what the
plain table holds.
Missing for the full property: writing to a cell that was merged into a coarser node with a nonzero value by
an earlier prune, which fails (`C24_add_after_prune_fails`, `C24_set_prune_fails`, `C24_set_neighbour_fails`);
values less than `kEpsilon` apart, which pruning may merge (`C24_prune_partial` bounds the change). -/
theorem C24_table_partial (config : VolumetricOctreeConfig) (hpos : 0 < config.treeHeight) (hH : config.treeHeight ≤ 20)
    (h0 : config.minLogOdds ≤ 0) (h1 : 0 ≤ config.maxLogOdds) (ops : List VolOp)
    (hops : VolOp.AllOk (VolumetricOctree.create config) ops) (j : Index 3) (hj : CellInMap config.treeHeight j) :
    (ops.foldl VolOp.run (VolumetricOctree.create config)).getCellValue j
      = (ops.foldl (VolOp.spec config.minLogOdds config.maxLogOdds) fun _ => 0) j := by
  suffices ∀ (m : VolumetricOctree) (f : Index 3 → ℚ), m.Regular → m.config = config → VolOp.AllOk m ops →
      (∀ j, CellInMap config.treeHeight j → m.getCellValue j = f j) →
      (ops.foldl VolOp.run m).getCellValue j = (ops.foldl (VolOp.spec config.minLogOdds config.maxLogOdds) f) j from
    this _ _ (VolumetricOctree.create_regular hpos hH) rfl hops fun j _ => VolumetricOctree.create_get j
  clear hops
  induction ops with
  | nil => intro m f _ _ _ hf; exact hf j hj
  | cons o ops ih =>
    intro m f hm hc ho hf
    subst hc
    rw [List.foldl_cons, List.foldl_cons]
    exact ih _ _ (hm.run o ho.1) (VolumetricOctree.run_config m o) ho.2
      (fun j hj => hm.get h0 h1 o ho.1 f hf j hj)

/-- C24 without pruning, no conditions on the writes: after any sequence of cell writes and clears, the octree is the
plain table. -/
theorem C24_table_without_prune (config : VolumetricOctreeConfig) (hpos : 0 < config.treeHeight) (hH : config.treeHeight ≤ 20)
    (ops : List VolOp)
    (hops : ∀ o ∈ ops, (∃ i v, o = .set i v ∧ CellInMap config.treeHeight i) ∨ (∃ i u, o = .add i u ∧ CellInMap config.treeHeight i) ∨
      o = .clear)
    (j : Index 3) (hj : CellInMap config.treeHeight j) :
    (ops.foldl VolOp.run (VolumetricOctree.create config)).getCellValue j
      = (ops.foldl (VolOp.spec config.minLogOdds config.maxLogOdds) fun _ => 0) j := by
  suffices ∀ (m : VolumetricOctree) (f : Index 3 → ℚ), m.Inv → VTree.ZeroAbove m.config.treeHeight m.root → m.config = config →
      (∀ j, CellInMap config.treeHeight j → m.getCellValue j = f j) →
      (ops.foldl VolOp.run m).getCellValue j = (ops.foldl (VolOp.spec config.minLogOdds config.maxLogOdds) f) j from
    this _ _ (VolumetricOctree.create_regular hpos hH).toInv (VTree.zeroAbove_leaf0 _) rfl
      fun j _ => VolumetricOctree.create_get j
  induction ops with
  | nil => intro m f _ _ _ hf; exact hf j hj
  | cons o ops ih =>
    intro m f hm hz hc hf
    have ih := ih fun o ho => hops o (List.mem_cons_of_mem _ ho)
    rw [List.foldl_cons, List.foldl_cons]
    have hw : ∀ i g, CellInMap config.treeHeight i →
        (m.writeNode (indexAndHeightToNodeIndex i 0) g).Inv ∧
        VTree.ZeroAbove m.config.treeHeight (m.writeNode (indexAndHeightToNodeIndex i 0) g).root ∧
        ∀ j, CellInMap config.treeHeight j →
          (m.writeNode (indexAndHeightToNodeIndex i 0) g).getCellValue j = if j = i then g (f i) else f j := by
      intro i g hi
      rw [← hc] at hi
      refine ⟨⟨hm.pos, hm.le, ?_⟩, ?_, fun j hj => ?_⟩
      · rw [VolumetricOctree.write_root hm hi]; exact VTree.write_ne_nil _ _ hm.root _
      · rw [VolumetricOctree.write_root hm hi]
        exact VTree.ZeroAbove.write hm.root hz g _ (cellPath_length _ _)
      · rw [VolumetricOctree.write_get hm hi (hz.fresh _ (cellPath_length _ _)) g (by rw [hc]; exact hj), hf j hj,
          hf i (by rw [← hc]; exact hi)]
    rcases hops o List.mem_cons_self with ⟨i, v, rfl, hi⟩ | ⟨i, u, rfl, hi⟩ | rfl
    · obtain ⟨a, b, c⟩ := hw i (fun _ => v) hi
      exact ih _ _ a b hc c
    · obtain ⟨a, b, c⟩ := hw i (fun x => x + u) hi
      exact ih _ _ a b hc c
    · exact ih _ _ ⟨hm.pos, hm.le, by simp [VolOp.run, VolumetricOctree.clear]⟩ (VTree.zeroAbove_leaf0 _) hc
        fun j _ => VolumetricOctree.clear_get j

/-- C24: what `prune` (and `threshold`) does to the table after any covered history, without assuming the values are
separated: every cell ends up within `tree_height * kEpsilon` of its clamped value.
Missing for the full property: histories that write into merged regions. -/
theorem C24_prune_partial (config : VolumetricOctreeConfig) (hpos : 0 < config.treeHeight) (hH : config.treeHeight ≤ 20)
    (h0 : config.minLogOdds ≤ 0) (h1 : 0 ≤ config.maxLogOdds) (ops : List VolOp)
    (hops : VolOp.AllOk (VolumetricOctree.create config) ops) (j : Index 3) (hj : CellInMap config.treeHeight j) :
    let m := ops.foldl VolOp.run (VolumetricOctree.create config)
    |m.prune.getCellValue j - clamp config.minLogOdds config.maxLogOdds (m.getCellValue j)| ≤ kEpsilon * config.treeHeight ∧
      m.threshold.getCellValue j = m.prune.getCellValue j := by
  intro m
  have hm : m.Regular := (VolumetricOctree.create_regular hpos hH).runAll ops hops
  have hc : m.config = config := by
    have : ∀ (ops : List VolOp) (m : VolumetricOctree), (ops.foldl VolOp.run m).config = m.config := by
      intro ops
      induction ops with
      | nil => intro m; rfl
      | cons o ops ih => intro m; rw [List.foldl_cons, ih, VolumetricOctree.run_config]
    exact this ops _
  rw [← hc] at hj h0 h1 ⊢
  refine ⟨?_, rfl⟩
  rw [VolumetricOctree.getCellValue_eq hm.prune.toInv (by exact hj), VolumetricOctree.getCellValue_eq hm.toInv hj]
  exact VTree.read_prune h0 h1 _ _ hm.root hm.clean _ (cellPath_length _ _)

theorem VTree.read_prune_mem {lo hi : ℚ} (h0 : lo ≤ 0) (h1 : 0 ≤ hi) (p : ℚ) (t : VTree) (q) :
    lo ≤ VTree.read (VTree.prune lo hi p t) q ∧ VTree.read (VTree.prune lo hi p t) q ≤ hi := by
  have hle := le_trans h0 h1
  induction t generalizing p q with
  | nil =>
    have : VTree.read (.nil : VTree) q = 0 := by
      cases q with
      | nil => rfl
      | cons i q => rw [VTree.read_cons]; rfl
    rw [VTree.prune, this]; exact ⟨h0, h1⟩
  | leaf a => rw [VTree.prune, VTree.read_leaf]; exact clamp_mem hle _
  | node a ch ih =>
    rw [VTree.prune]
    obtain ⟨c, hc⟩ : ∃ c : Fin (2 ^ 3) → VTree, c = fun i =>
        if (ch i).isNil then (if kEpsilon < |p + a| then .leaf (clamp lo hi (p + a + 0)) else .nil)
        else VTree.prune lo hi (p + a) (ch i) := ⟨_, rfl⟩
    have hch : ∀ i q, lo ≤ VTree.read (c i) q ∧ VTree.read (c i) q ≤ hi := by
      intro i q
      rw [hc]
      dsimp only
      split
      · split
        · rw [VTree.read_leaf]; exact clamp_mem hle _
        · have := ih i 0 q
          next hn _ => rw [VTree.isNil_true hn, VTree.prune] at this; exact this
      · exact ih i _ q
    rw [← hc]
    unfold VTree.mergeChildren
    dsimp only
    split
    · rw [VTree.read_leaf]; exact clamp_mem hle _
    · cases q with
      | nil => exact ⟨h0, h1⟩
      | cons i q =>
        rw [VTree.read_cons, child_node]
        split
        · exact ⟨h0, h1⟩
        · exact hch i q

/-- C21 for the volumetric octree: after `prune` or `threshold`, whatever was written to cells or coarser nodes before, every
cell reads a value within the configured bounds. -/
theorem C21_volumetric_bounds (m : VolumetricOctree) (h0 : m.config.minLogOdds ≤ 0) (h1 : 0 ≤ m.config.maxLogOdds) (j : Index 3) :
    m.config.minLogOdds ≤ m.prune.getCellValue j ∧ m.prune.getCellValue j ≤ m.config.maxLogOdds ∧
      m.threshold.getCellValue j = m.prune.getCellValue j :=
  ⟨(VTree.read_prune_mem h0 h1 0 m.root _).1, (VTree.read_prune_mem h0 h1 0 m.root _).2, rfl⟩

/-! ## C23, C56 Leaf enumeration and bounds -/

theorem VolumetricOctree.leaves_height (m : VolumetricOctree) (h : Nat) (t : VTree) (hd : VTree.Clean h t) (n : NdtreeIndex 3)
    (hn : n.height = h) (s : ℚ) :
    ∀ e ∈ t.leaves n s, 0 ≤ e.1.height ∧ e.1.height ≤ h ∧ (t.hasChildrenArray = true → e.1.height < h) := by
  induction h generalizing t n s with
  | zero =>
    cases t with
    | nil => intro e he; cases he
    | leaf a =>
      intro e he
      rw [VTree.leaves, List.mem_singleton] at he
      subst he
      exact ⟨by simp only; omega, by simp only; omega, by simp [hasChildrenArray]⟩
    | node a ch => simp [VTree.Clean, hasChildrenArray] at hd
  | succ h ih =>
    cases t with
    | nil => intro e he; cases he
    | leaf a =>
      intro e he
      rw [VTree.leaves, List.mem_singleton] at he
      subst he
      exact ⟨by simp only; omega, by simp only; omega, by simp [hasChildrenArray]⟩
    | node a ch =>
      intro e he
      rw [VTree.leaves, List.mem_append, List.mem_flatMap, List.mem_flatMap] at he
      have hch : ∀ c, (n.computeChildIndex c).height = h := by intro c; simp only [computeChildIndex, hn]; push_cast; omega
      rcases he with ⟨c, _, he⟩ | ⟨c, _, he⟩
      · split at he
        · simp only [List.mem_singleton] at he
          subst he
          simp only [hch]; push_cast; omega
        · cases he
      · split at he
        · cases he
        · have := ih (ch c) (hd.2 c) _ (hch _) _ e he
          push_cast; omega

theorem VolumetricOctree.external_region' (m : VolumetricOctree) (hpos : 0 < m.config.treeHeight) (n : NdtreeIndex 3)
    (h0 : 0 ≤ n.height) (h1 : n.height < m.config.treeHeight) (j : Index 3) :
    NodeRegion (m.toExternalNodeIndex n) j ↔ NodeRegion n fun k => j k + 2 ^ (m.config.treeHeight - 1) :=
  external_region ⟨⟨1, 0, 1, m.config.treeHeight⟩, 0, .nil⟩ hpos n h0 h1 j

theorem VolumetricOctree.Regular.leaves {m : VolumetricOctree} (h : m.Regular) (ha : m.root.hasChildrenArray = true) (j : Index 3) :
    (CellInMap m.config.treeHeight j → ∃ n : NdtreeIndex 3, NodeRegion n j ∧ 0 ≤ n.height ∧ n.height < m.config.treeHeight ∧
      m.forEachLeaf.filter (fun e => decide (NodeRegion e.1 j)) = [(n, m.getCellValue j)]) ∧
    (¬ CellInMap m.config.treeHeight j → m.forEachLeaf.filter (fun e => decide (NodeRegion e.1 j)) = []) := by
  unfold VolumetricOctree.forEachLeaf
  rw [List.filter_map]
  have hcongr : (m.root.leaves m.internalRoot 0).filter
      ((fun e : NdtreeIndex 3 × ℚ => decide (NodeRegion e.1 j)) ∘ fun e => (m.toExternalNodeIndex e.1, e.2))
      = (m.root.leaves m.internalRoot 0).filter
        (fun e => decide (NodeRegion e.1 fun k => j k + 2 ^ (m.config.treeHeight - 1))) := by
    apply List.filter_congr
    intro e hmem
    have := VolumetricOctree.leaves_height m _ _ h.clean m.internalRoot rfl 0 e hmem
    simp only [Function.comp]
    rw [decide_eq_decide]
    exact m.external_region' h.pos e.1 this.1 (this.2.2 ha) j
  rw [hcongr]
  have key := VTree.leaves_filter m.config.treeHeight m.root h.root h.clean m.internalRoot rfl
    fun k => j k + 2 ^ (m.config.treeHeight - 1)
  have hroot : NodeRegion m.internalRoot (fun k => j k + 2 ^ (m.config.treeHeight - 1)) ↔ CellInMap m.config.treeHeight j := by
    unfold NodeRegion VolumetricOctree.internalRoot CellInMap
    apply forall_congr'
    intro k
    have e := two_pow_double (a := m.config.treeHeight) (b := m.config.treeHeight - 1) (by have := h.pos; omega)
    simp only [Int.toNat_natCast, zero_mul, zero_add, one_mul]
    omega
  constructor
  · intro hj
    obtain ⟨n, h1, h2, h3, h4, h5⟩ := key.1 (hroot.2 hj)
    refine ⟨m.toExternalNodeIndex n, (m.external_region' h.pos n h1 (h4 ha) j).2 h3, h1, h4 ha, ?_⟩
    rw [h5, VolumetricOctree.getCellValue_eq h.toInv hj]
    rfl
  · intro hj
    rw [key.2 (fun e => hj (hroot.1 e))]; rfl

/-- C23 for the volumetric octree: after any covered history that leaves the map not collapsed into its root node, every
cell lies in exactly one reported leaf, which reports the value a point query returns, and no leaf reaches outside the map.
Missing for the full property: a map that consists of its root node only (fails, `C23_volumetric_root_fails`), and the
histories excluded from `C24_table_partial` (fail, `C23_volumetric_values_fails`). -/
theorem C23_volumetric_leaves_partial (config : VolumetricOctreeConfig) (hpos : 0 < config.treeHeight) (hH : config.treeHeight ≤ 20)
    (ops : List VolOp) (hops : VolOp.AllOk (VolumetricOctree.create config) ops) (j : Index 3) :
    let m := ops.foldl VolOp.run (VolumetricOctree.create config)
    m.root.hasChildrenArray = true →
    (CellInMap m.config.treeHeight j → ∃ n : NdtreeIndex 3, NodeRegion n j ∧ 0 ≤ n.height ∧ n.height < m.config.treeHeight ∧
      m.forEachLeaf.filter (fun e => decide (NodeRegion e.1 j)) = [(n, m.getCellValue j)]) ∧
    (¬ CellInMap m.config.treeHeight j → m.forEachLeaf.filter (fun e => decide (NodeRegion e.1 j)) = []) := by
  intro m ha
  exact ((VolumetricOctree.create_regular hpos hH).runAll ops hops).leaves ha j

/-- C56 for the volumetric octree, under the same conditions: every observed cell lies within the reported bounds. -/
theorem C56_volumetric_bounds_cover_partial (config : VolumetricOctreeConfig) (hpos : 0 < config.treeHeight)
    (hH : config.treeHeight ≤ 20) (ops : List VolOp) (hops : VolOp.AllOk (VolumetricOctree.create config) ops) (j : Index 3)
    (k : Fin 3) :
    let m := ops.foldl VolOp.run (VolumetricOctree.create config)
    m.root.hasChildrenArray = true → CellInMap m.config.treeHeight j → 1 / 1000 ≤ |m.getCellValue j| →
    m.getMinIndex k ≤ j k ∧ j k ≤ m.getMaxIndex k := by
  intro m ha hj ho
  obtain ⟨n, h1, _, _, h4⟩ := (C23_volumetric_leaves_partial config hpos hH ops hops j ha).1 hj
  have he : m.empty = false := by unfold VolumetricOctree.empty; rw [ha]; rfl
  have hmem : (n, m.getCellValue j) ∈ m.forEachLeaf.filter (fun e => decide (NodeRegion e.1 j)) := by rw [h4]; simp [m]
  rw [List.mem_filter] at hmem
  have hp : (!isUnobserved (m.getCellValue j)) = true := by simpa [isUnobserved] using ho
  have hr := h1 k
  unfold VolumetricOctree.getMinIndex VolumetricOctree.getMaxIndex
  rw [he]
  simp only [Bool.false_eq_true, if_false]
  constructor
  · have := (foldl_min_le m.forEachLeaf (fun e => !isUnobserved e.2) (fun e => nodeIndexToMinCornerIndex e.1) k m.getMaxPossibleIndex).2.1
      _ hmem.1 hp
    simp only [(minCorner_region n k).1] at this
    exact le_trans this hr.1
  · have := (foldl_max_ge m.forEachLeaf (fun e => !isUnobserved e.2) (fun e => nodeIndexToMaxCornerIndex e.1) k m.getMinPossibleIndex).2.1
      _ hmem.1 hp
    simp only [(minCorner_region n k).2] at this
    exact le_trans (by omega) this

/-- C56 for the volumetric octree, under the same conditions: if any cell is observed, each face of the reported box contains an
observed cell. -/
theorem C56_volumetric_bounds_tight_partial (config : VolumetricOctreeConfig) (hpos : 0 < config.treeHeight)
    (hH : config.treeHeight ≤ 20) (ops : List VolOp) (hops : VolOp.AllOk (VolumetricOctree.create config) ops) (k : Fin 3) :
    let m := ops.foldl VolOp.run (VolumetricOctree.create config)
    m.root.hasChildrenArray = true → (∃ j, CellInMap m.config.treeHeight j ∧ 1 / 1000 ≤ |m.getCellValue j|) →
    (∃ j, CellInMap m.config.treeHeight j ∧ 1 / 1000 ≤ |m.getCellValue j| ∧ j k = m.getMinIndex k) ∧
    (∃ j, CellInMap m.config.treeHeight j ∧ 1 / 1000 ≤ |m.getCellValue j| ∧ j k = m.getMaxIndex k) := by
  intro m ha hex
  obtain ⟨j0, hj0, ho0⟩ := hex
  have h : m.Regular := (VolumetricOctree.create_regular hpos hH).runAll ops hops
  have he : m.empty = false := by unfold VolumetricOctree.empty; rw [ha]; rfl
  have hcov := C56_volumetric_bounds_cover_partial config hpos hH ops hops j0 k ha hj0 ho0
  change m.getMinIndex k ≤ j0 k ∧ j0 k ≤ m.getMaxIndex k at hcov
  have hleaves := fun j => C23_volumetric_leaves_partial config hpos hH ops hops j ha
  change ∀ j, (CellInMap m.config.treeHeight j → ∃ n : NdtreeIndex 3, NodeRegion n j ∧ 0 ≤ n.height ∧ n.height < m.config.treeHeight ∧
      m.forEachLeaf.filter (fun e => decide (NodeRegion e.1 j)) = [(n, m.getCellValue j)]) ∧
    (¬ CellInMap m.config.treeHeight j → m.forEachLeaf.filter (fun e => decide (NodeRegion e.1 j)) = []) at hleaves
  have corner : ∀ e ∈ m.forEachLeaf, (!isUnobserved e.2) = true → ∀ j, NodeRegion e.1 j →
      CellInMap m.config.treeHeight j ∧ 1 / 1000 ≤ |m.getCellValue j| := by
    intro e hmem hp j hr
    have hin : e ∈ m.forEachLeaf.filter (fun e => decide (NodeRegion e.1 j)) := List.mem_filter.2 ⟨hmem, by simpa using hr⟩
    by_cases hj : CellInMap m.config.treeHeight j
    · refine ⟨hj, ?_⟩
      obtain ⟨n, _, _, _, h4⟩ := (hleaves j).1 hj
      rw [h4, List.mem_singleton] at hin
      subst hin
      simpa [isUnobserved] using hp
    · rw [(hleaves j).2 hj] at hin; cases hin
  have hmaxP : ∀ k, m.getMaxPossibleIndex k = 2 ^ (m.config.treeHeight - 1) - 1 := by
    intro k
    simp only [VolumetricOctree.getMaxPossibleIndex, VolumetricOctree.rootIndexOffset_eq' m h.pos, (minCorner_region _ k).2, VolumetricOctree.internalRoot,
      Int.toNat_natCast, zero_add, one_mul]
    have e := two_pow_double (a := m.config.treeHeight) (b := m.config.treeHeight - 1) (by have := h.pos; omega)
    omega
  have hminP : ∀ k, m.getMinPossibleIndex k = -2 ^ (m.config.treeHeight - 1) := by
    intro k
    simp only [VolumetricOctree.getMinPossibleIndex, VolumetricOctree.rootIndexOffset_eq' m h.pos, (minCorner_region _ k).1, VolumetricOctree.internalRoot,
      zero_mul, zero_sub]
  have hregmin : ∀ n : NdtreeIndex 3, NodeRegion n (nodeIndexToMinCornerIndex n) ∧ NodeRegion n (nodeIndexToMaxCornerIndex n) := by
    intro n
    have hw := two_pow_pos' n.height.toNat
    refine ⟨fun k => ?_, fun k => ?_⟩
    · rw [(minCorner_region n k).1]; constructor <;> nlinarith
    · rw [(minCorner_region n k).2]; constructor
      · nlinarith
      · omega
  have hj0k := hj0 k
  have hmin : m.getMinIndex k = (m.forEachLeaf.foldl (fun acc e => if !isUnobserved e.2 then
      fun i => min (acc i) (nodeIndexToMinCornerIndex e.1 i) else acc) m.getMaxPossibleIndex) k := by
    unfold VolumetricOctree.getMinIndex; rw [he]; simp only [Bool.false_eq_true, if_false]
  have hmax : m.getMaxIndex k = (m.forEachLeaf.foldl (fun acc e => if !isUnobserved e.2 then
      fun i => max (acc i) (nodeIndexToMaxCornerIndex e.1 i) else acc) m.getMinPossibleIndex) k := by
    unfold VolumetricOctree.getMaxIndex; rw [he]; simp only [Bool.false_eq_true, if_false]
  constructor
  · rcases (foldl_min_le m.forEachLeaf (fun e => !isUnobserved e.2) (fun e => nodeIndexToMinCornerIndex e.1) k m.getMaxPossibleIndex).2.2
      with h3 | ⟨e, he', hp, h3⟩
    · refine ⟨j0, hj0, ho0, ?_⟩
      rw [← hmin, hmaxP] at h3
      omega
    · have := corner e he' hp _ (hregmin e.1).1
      exact ⟨_, this.1, this.2, by rw [hmin]; exact h3.symm⟩
  · rcases (foldl_max_ge m.forEachLeaf (fun e => !isUnobserved e.2) (fun e => nodeIndexToMaxCornerIndex e.1) k m.getMinPossibleIndex).2.2
      with h3 | ⟨e, he', hp, h3⟩
    · refine ⟨j0, hj0, ho0, ?_⟩
      rw [← hmax, hminP] at h3
      omega
    · have := corner e he' hp _ (hregmin e.1).2
      exact ⟨_, this.1, this.2, by rw [hmax]; exact h3.symm⟩

/-! ## Findings -/

/-- The eight cells of the box `[0,2)^3`. -/
def boxCells : List (Index 3) :=
  (List.range 8).map fun n k => ((n / 2 ^ k.val % 2 : Nat) : Int)

/-- A map of height 2 whose cells in `[0,2)^3` were all set to 1 and then pruned: they are merged into one node. -/
def mergedMap : VolumetricOctree :=
  ((boxCells.map fun i => VolOp.set i 1) ++ [VolOp.prune]).foldl VolOp.run (.create ⟨1, -2, 4, 2⟩)

/-- Finding: after a prune has merged cells, adding to one of them loses its old value: the cell held 1, adding 1/2
leaves 1/2 instead of 3/2. -/
theorem C24_add_after_prune_fails :
    mergedMap.getCellValue (fun _ => 0) = 1 ∧
      (mergedMap.addToCellValue (fun _ => 0) (1 / 2)).getCellValue (fun _ => 0) = 1 / 2 := by
  decide +kernel

/-- Finding: after a prune has merged cells, setting one of them is undone by the next prune: the cell was set to 2, and after
pruning again reads 3 (the merged value is added to it). -/
theorem C24_set_prune_fails :
    (mergedMap.setCellValue (fun _ => 0) 2).getCellValue (fun _ => 0) = 2 ∧
      (mergedMap.setCellValue (fun _ => 0) 2).prune.getCellValue (fun _ => 0) = 3 := by
  decide +kernel

/-- A map of height 3 whose 64 cells in `[0,4)^3` were all set to 1 and then pruned. -/
def mergedMap3 : VolumetricOctree :=
  (((List.range 64).map fun n => VolOp.set (fun k => ((n / 4 ^ k.val % 4 : Nat) : Int)) 1) ++ [VolOp.prune]).foldl VolOp.run
    (.create ⟨1, -2, 4, 3⟩)

/-- Finding: after a prune has merged cells two levels up, writing one of them changes its neighbours: cell (1,0,0) held 1 and
reads 0 after cell (0,0,0) is set. -/
theorem C24_set_neighbour_fails :
    let e : Index 3 := fun k => if k = 0 then 1 else 0
    mergedMap3.getCellValue e = 1 ∧ (mergedMap3.setCellValue (fun _ => 0) 2).getCellValue e = 0 := by
  decide +kernel

/-- Finding: cell writes are not clamped; the value is out of bounds until the next prune. -/
theorem C20_volumetric_add_clamps_fails :
    let m := (VolumetricOctree.create ⟨1, -2, 4, 2⟩).addToCellValue (fun _ => 0) 10
    m.getCellValue (fun _ => 0) = 10 ∧ m.prune.getCellValue (fun _ => 0) = 4 := by
  decide +kernel

/-- Finding: the leaves of a map that consists of its root node only are reported at the wrong place: a map of height 2 holds
the cells `[-2,2)^3`, but its only leaf is reported to cover `[0,4)^3`. -/
theorem C23_volumetric_root_fails :
    let m := VolumetricOctree.create ⟨1, -2, 4, 2⟩
    m.forEachLeaf.filter (fun e => decide (NodeRegion e.1 fun _ => -1)) = [] ∧
      (m.forEachLeaf.filter (fun e => decide (NodeRegion e.1 fun _ => 3))).length = 1 ∧
      CellInMap 2 (fun _ => -1) ∧ ¬ CellInMap 2 (fun _ => 3) := by
  decide +kernel

/-- Finding: after a write into merged cells, leaf enumeration and point queries disagree: the query returns 2, the leaf 3. -/
theorem C23_volumetric_values_fails :
    let m := mergedMap.setCellValue (fun _ => 0) 2
    m.getCellValue (fun _ => 0) = 2 ∧
      (m.forEachLeaf.filter (fun e => decide (NodeRegion e.1 fun _ => 0))).map Prod.snd = [3] := by
  decide +kernel

/-- Finding: a map whose cells all have the same value is collapsed to its root by pruning; its bounds are then reported in the wrong place: all cells
from -1 to 0 are observed, the reported bounds are 0 to 1. -/
theorem C56_volumetric_root_fails :
    let m := (((List.range 8).map fun n => VolOp.set (fun k => ((n / 2 ^ k.val % 2 : Nat) : Int) - 1) 1) ++ [VolOp.prune]).foldl VolOp.run
      (.create ⟨1, -2, 4, 1⟩)
    m.getCellValue (fun _ => -1) = 1 ∧ CellInMap 1 (fun _ => -1) ∧ m.getMinIndex 0 = 0 ∧ m.getMaxIndex 0 = 1 := by
  decide +kernel

/-! ## The hypotheses are met -/

example : -- a covered history: writes, a prune that merges nothing, further writes, a clear, a write at the other corner
    VolOp.AllOk (VolumetricOctree.create ⟨1, -2, 4, 2⟩)
      [.set (fun _ => -2) 1, .add (fun _ => -2) 5, .add (fun _ => 1) (-3), .clear, .set (fun _ => 1) 7] := by
  refine ⟨⟨?_, ?_⟩, ⟨?_, ?_⟩, ⟨?_, ?_⟩, trivial, ⟨?_, ?_⟩, trivial⟩
  · decide
  · left; decide +kernel
  · decide
  · right; unfold VolumetricOctree.HasCell; decide +kernel
  · decide
  · left; decide +kernel
  · decide
  · left; decide +kernel

example : -- pruning in a state with separated values
    Separated 2 (-2) 4 fun j : Index 3 => if j 0 < 0 then 1 else 10 := by
  intro i j _ _
  have e1 : clamp (-2) 4 (1 : ℚ) = 1 := by decide +kernel
  have e10 : clamp (-2) 4 (10 : ℚ) = 4 := by decide +kernel
  dsimp only
  split <;> split <;> simp only [e1, e10] <;> norm_num [kEpsilon]

example : (-2 : ℚ) ≤ 0 ∧ (0 : ℚ) ≤ 4 ∧ CellInMap 2 (fun _ => -2) ∧
    ((VolumetricOctree.create ⟨1, -2, 4, 2⟩).setCellValue (fun _ => -2) 1).root.hasChildrenArray = true := by decide +kernel

end Wavemap
