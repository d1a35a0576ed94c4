import Verif.Lemmas.WaveletBlock
/-!
# C17 – the wavelet octree as a table of cell values

The specification is a plain table `Index 3 → ℚ` of cell values (`Spec/Box.lean` has the box means).
-/
namespace Wavemap
open NdtreeIndex

/-! ## Specification -/

/-- Cells a wavelet octree of height `H` can hold: `[-2^(H-1), 2^(H-1))` per axis. -/
def CellInMap (H : Nat) (i : Index 3) : Prop := ∀ k, -2 ^ (H - 1) ≤ i k ∧ i k < 2 ^ (H - 1)

instance (H : Nat) (i : Index 3) : Decidable (CellInMap H i) := by unfold CellInMap; infer_instance

/-- Nodes below the root of a wavelet octree of height `H`, in the user's coordinates. -/
def NodeInMap (H : Nat) (n : NdtreeIndex 3) : Prop :=
  0 ≤ n.height ∧ n.height < H ∧
    ∀ k, -2 ^ (H - 1 - n.height.toNat) ≤ n.position k ∧ n.position k < 2 ^ (H - 1 - n.height.toNat)

/-- Write operations of a user; a cell is a node of height 0. -/
inductive WaveletOp where
  | add (n : NdtreeIndex 3) (u : ℚ)
  | set (n : NdtreeIndex 3) (v : ℚ)

/-- The node an operation addresses. -/
def WaveletOp.node : WaveletOp → NdtreeIndex 3
  | .add n _ => n
  | .set n _ => n

/-- The operation on the modelled map. -/
def WaveletOp.run (m : WaveletOctree) : WaveletOp → WaveletOctree
  | .add n u => m.addToNodeValue n u
  | .set n v => m.setNodeValue n v

/-- Minimum corner of the box of side `2^(h+1)` that contains the node in the octree grid, which is
anchored at `-2^(H-1)`. -/
def parentBox (H : Nat) (n : NdtreeIndex 3) : Index 3 := fun k =>
  (n.position k * 2 ^ n.height.toNat + 2 ^ (H - 1)) / 2 ^ (n.height.toNat + 1) * 2 ^ (n.height.toNat + 1)
    - 2 ^ (H - 1)

/-- The operation on a plain table, as the code performs it: `add` adds inside the node; `set` adds the
difference between the new value and the mean over the *parent's* box (the documented meaning would be to
overwrite the cells inside the node with `v`; see `C17_set_overwrites_fails`). -/
def WaveletOp.spec (H : Nat) (f : Index 3 → ℚ) : WaveletOp → Index 3 → ℚ
  | .add n u => fun j => if NodeRegion n j then f j + u else f j
  | .set n v => fun j => if NodeRegion n j then f j + (v - boxMean f (n.height.toNat + 1) (parentBox H n)) else f j

/-! ## Refinement -/

theorem rootIndexOffset_eq (m : WaveletOctree) (hH : 0 < m.config.treeHeight) (k : Fin 3) :
    m.rootIndexOffset k = 2 ^ (m.config.treeHeight - 1) := by
  have : ((m.config.treeHeight : Int) - 1).toNat = m.config.treeHeight - 1 := by omega
  simp [WaveletOctree.rootIndexOffset, nodeIndexToMinCornerIndex, multExp2_eq, this]

theorem two_pow_split {H h : Nat} (hlt : h < H) : (2 : Int) ^ (H - 1) = 2 ^ (H - 1 - h) * 2 ^ h := by
  rw [← Int.pow_add]; congr 1; omega

theorem offset_div {H h : Nat} (hlt : h < H) : divExp2Floor (2 ^ (H - 1)) h = 2 ^ (H - 1 - h) := by
  rw [divExp2Floor_eq, two_pow_split hlt]
  exact Int.mul_ediv_cancel _ (Int.ne_of_gt (two_pow_pos' h))

theorem toInternal_eq (m : WaveletOctree) (n : NdtreeIndex 3) (hn : NodeInMap m.config.treeHeight n) :
    m.toInternal n = ⟨n.height, fun k => n.position k + 2 ^ (m.config.treeHeight - 1 - n.height.toNat)⟩ := by
  have := hn.1; have := hn.2.1
  unfold WaveletOctree.toInternal
  congr 1
  funext k
  rw [rootIndexOffset_eq m (by omega), offset_div (by omega)]

theorem two_pow_double {a b : Nat} (h : a = b + 1) : (2 : Int) ^ a = 2 ^ b + 2 ^ b := by
  rw [h, Int.pow_succ]; omega

theorem toInternal_inTree (m : WaveletOctree) (n : NdtreeIndex 3) (hn : NodeInMap m.config.treeHeight n) :
    NodeInTree m.config.treeHeight (m.toInternal n) := by
  rw [toInternal_eq m n hn]
  have h0 := hn.1; have h1 := hn.2.1
  refine ⟨h0, by simp only; omega, fun k => ?_⟩
  have h2 := hn.2.2 k
  simp only
  have e := two_pow_double (a := m.config.treeHeight - n.height.toNat)
    (b := m.config.treeHeight - 1 - n.height.toNat) (by omega)
  omega

theorem cell_nodeInMap {H : Nat} (hH : 0 < H) {i : Index 3} (hi : CellInMap H i) : NodeInMap H ⟨0, i⟩ :=
  ⟨by simp, by simp only; omega, fun k => by simpa using hi k⟩

theorem indexAndHeight_zero (i : Index 3) : indexAndHeightToNodeIndex i 0 = ⟨0, i⟩ := by
  unfold indexAndHeightToNodeIndex
  congr 1
  funext k; simp [divExp2Floor_eq]

/-- The map represents the table `f`. -/
def WaveletOctree.Rep (m : WaveletOctree) (f : Index 3 → ℚ) : Prop :=
  Represents m.config.treeHeight m.root m.rootScale fun i => f fun k => i k - 2 ^ (m.config.treeHeight - 1)

theorem region_shift (m : WaveletOctree) (n : NdtreeIndex 3) (hn : NodeInMap m.config.treeHeight n) (j : Index 3) :
    NodeRegion (m.toInternal n) j ↔ NodeRegion n fun k => j k - 2 ^ (m.config.treeHeight - 1) := by
  rw [toInternal_eq m n hn]
  unfold NodeRegion
  apply forall_congr'
  intro k
  have h0 := hn.1; have h1 := hn.2.1
  simp only
  rw [two_pow_split (h := n.height.toNat) (by omega : n.height.toNat < m.config.treeHeight)]
  generalize (2 : Int) ^ (m.config.treeHeight - 1 - n.height.toNat) = a
  generalize (2 : Int) ^ n.height.toNat = w
  have e1 : (n.position k + a) * w = n.position k * w + a * w := by ring
  have e2 : (n.position k + a + 1) * w = (n.position k + 1) * w + a * w := by ring
  rw [e1, e2]
  omega

theorem WaveletOctree.Rep.node {m : WaveletOctree} (hH : m.config.treeHeight ≤ 20) {f : Index 3 → ℚ} (hr : m.Rep f)
    (n : NdtreeIndex 3) (hn : NodeInMap m.config.treeHeight n) :
    m.getNodeValue n = boxMean f n.height.toNat fun k => n.position k * 2 ^ n.height.toNat := by
  have h := Represents.node hH hr (m.toInternal n) (toInternal_inTree m n hn)
  rw [boxMean_shift] at h
  unfold WaveletOctree.getNodeValue WaveletOctree.path
  rw [h]
  have h0 := hn.1; have h1 := hn.2.1
  rw [toInternal_eq m n hn]
  simp only
  congr 1
  funext k
  rw [two_pow_split (h := n.height.toNat) (by omega : n.height.toNat < m.config.treeHeight)]
  ring

theorem WaveletOctree.Rep.run {m : WaveletOctree} (hH : m.config.treeHeight ≤ 20) {f : Index 3 → ℚ} (hr : m.Rep f)
    (o : WaveletOp) (ho : NodeInMap m.config.treeHeight o.node) :
    (o.run m).Rep (o.spec m.config.treeHeight f) := by
  have hadd : ∀ n u, NodeInMap m.config.treeHeight n →
      (m.addToNodeValue n u).Rep fun j => if NodeRegion n j then f j + u else f j := by
    intro n u hn
    have h := Represents.add hH hr (m.toInternal n) (toInternal_inTree m n hn) u
    refine ⟨h.1, fun j hj => (h.2 j hj).trans ?_⟩
    have hs := region_shift m n hn j
    simp only [hs]
    have hcfg : (m.addToNodeValue n u).config = m.config := rfl
    rw [hcfg]
    by_cases hreg : NodeRegion n fun k => j k - 2 ^ (m.config.treeHeight - 1)
    · rw [if_pos hreg, if_pos hreg]
    · rw [if_neg hreg, if_neg hreg, add_zero]
  cases o with
  | add n u => exact hadd n u ho
  | set n v =>
    have hset : m.setNodeValue n v
        = m.addToNodeValue n (v - m.root.currentValue m.rootScale (m.path n)) := rfl
    show (m.setNodeValue n v).Rep _
    rw [hset]
    have hc := Represents.currentValue hH hr (m.toInternal n) (toInternal_inTree m n ho) ho.2.1
    unfold WaveletOctree.path
    rw [hc, boxMean_shift]
    have hbox : (fun k => parentCorner (m.toInternal n) k - 2 ^ (m.config.treeHeight - 1))
        = parentBox m.config.treeHeight n := by
      funext k
      rw [toInternal_eq m n ho]
      have h0 := ho.1; have h1 := ho.2.1
      simp only [WaveletOp.node] at h0 h1
      simp only [parentCorner, parentBox]
      congr 2
      have := two_pow_split (h := n.height.toNat) (by omega : n.height.toNat < m.config.treeHeight)
      rw [this, ← Int.add_mul, Int.pow_succ, Int.mul_comm (2 ^ n.height.toNat) 2]
      exact (Int.mul_ediv_mul_of_pos_left _ _ (two_pow_pos' _)).symm
    rw [hbox]
    have hh : (m.toInternal n).height = n.height := rfl
    rw [hh]
    exact hadd n _ ho

theorem run_treeHeight (m : WaveletOctree) (o : WaveletOp) : (o.run m).config = m.config := by
  cases o <;> rfl

theorem WaveletOctree.create_rep (config : WaveletOctreeConfig) : (WaveletOctree.create config).Rep fun _ => 0 := by
  refine ⟨by simp [WaveletOctree.create], fun j _ => ?_⟩
  simp only [WaveletOctree.create]
  cases nodePath config.treeHeight (⟨0, j⟩ : NdtreeIndex 3) with
  | nil => rfl
  | cons c p =>
    rw [WTree.getValue_cons _ (by simp), NTree.child_leaf, WTree.getValue_nil]
    revert c; decide +kernel

theorem WaveletOctree.run_all {config : WaveletOctreeConfig} (hH : config.treeHeight ≤ 20) (ops : List WaveletOp)
    (hops : ∀ o ∈ ops, NodeInMap config.treeHeight o.node) (m : WaveletOctree) (hm : m.config = config)
    (f : Index 3 → ℚ) (hr : m.Rep f) :
    (ops.foldl WaveletOp.run m).config = config ∧
      (ops.foldl WaveletOp.run m).Rep (ops.foldl (WaveletOp.spec config.treeHeight) f) := by
  induction ops generalizing m f with
  | nil => exact ⟨hm, hr⟩
  | cons o ops ih =>
    subst hm
    exact ih (fun o' h => hops o' (List.mem_cons_of_mem _ h)) _ (run_treeHeight m o) _
      (hr.run hH o (hops o List.mem_cons_self))

/-- C17, full refinement for the code as it is: after any sequence of writes to cells or coarser nodes,
reading a cell returns what a table updated by `WaveletOp.spec` holds, and reading a node returns the mean over
the node's cells. `add` behaves as documented; for `set` see below.
Missing for the full property: `set` overwriting the previous value. -/
theorem C17_table_partial (config : WaveletOctreeConfig) (hH : config.treeHeight ≤ 20) (hpos : 0 < config.treeHeight)
    (ops : List WaveletOp) (hops : ∀ o ∈ ops, NodeInMap config.treeHeight o.node) :
    let m := ops.foldl WaveletOp.run (WaveletOctree.create config)
    let f := ops.foldl (WaveletOp.spec config.treeHeight) fun _ => 0
    (∀ i, CellInMap config.treeHeight i → m.getCellValue i = f i) ∧
      (∀ n, NodeInMap config.treeHeight n →
        m.getNodeValue n = boxMean f n.height.toNat fun k => n.position k * 2 ^ n.height.toNat) := by
  intro m f
  obtain ⟨hc, hr⟩ := WaveletOctree.run_all hH ops hops _ rfl _ (WaveletOctree.create_rep config)
  have hn : ∀ n, NodeInMap config.treeHeight n →
        m.getNodeValue n = boxMean f n.height.toNat fun k => n.position k * 2 ^ n.height.toNat := by
    intro n hn
    exact WaveletOctree.Rep.node (by rw [hc]; exact hH) hr n (by rw [hc]; exact hn)
  refine ⟨fun i hi => ?_, hn⟩
  unfold WaveletOctree.getCellValue
  rw [indexAndHeight_zero, hn _ (cell_nodeInMap hpos hi)]
  simp [boxMean]

/-- C17 for additions: after any sequence of additions to cells, each cell holds the sum of what was
added to it. -/
theorem C17_add_cells (config : WaveletOctreeConfig) (hH : config.treeHeight ≤ 20) (hpos : 0 < config.treeHeight)
    (ops : List (Index 3 × ℚ)) (hops : ∀ o ∈ ops, CellInMap config.treeHeight o.1)
    (i : Index 3) (hi : CellInMap config.treeHeight i) :
    (ops.foldl (fun m o => m.addToCellValue o.1 o.2) (WaveletOctree.create config)).getCellValue i
      = ((ops.filter fun o => decide (o.1 = i)).map Prod.snd).sum := by
  have h := (C17_table_partial config hH hpos (ops.map fun o => .add ⟨0, o.1⟩ o.2) (by
    intro o ho
    obtain ⟨x, hx, rfl⟩ := List.mem_map.1 ho
    exact cell_nodeInMap hpos (hops x hx))).1 i hi
  simp only [List.foldl_map] at h
  have e : (fun (m : WaveletOctree) (o : Index 3 × ℚ) => m.addToCellValue o.1 o.2)
      = fun m o => WaveletOp.run m (.add ⟨0, o.1⟩ o.2) := by
    funext m o
    simp only [WaveletOctree.addToCellValue, indexAndHeight_zero, WaveletOp.run]
  rw [e, h]
  clear h e hops
  suffices ∀ f : Index 3 → ℚ, ops.foldl (fun x y => WaveletOp.spec config.treeHeight x (.add ⟨0, y.1⟩ y.2)) f i
      = f i + ((ops.filter fun o => decide (o.1 = i)).map Prod.snd).sum by
    rw [this]; simp
  induction ops with
  | nil => intro f; simp
  | cons o ops ih =>
    intro f
    rw [List.foldl_cons, ih]
    have hreg : NodeRegion (⟨0, o.1⟩ : NdtreeIndex 3) i ↔ o.1 = i := by
      unfold NodeRegion
      constructor
      · intro h; funext k; have := h k; simp at this; omega
      · rintro rfl k; simp
    simp only [WaveletOp.spec, hreg]
    by_cases h : o.1 = i
    · simp [h]; ring
    · simp [h]

/-- Frame for coarse writes: setting or adding to any node changes no cell outside it, and changes all
cells inside it by one common amount. -/
theorem C17_write_local (m : WaveletOctree) (hH : m.config.treeHeight ≤ 20) (f : Index 3 → ℚ)
    (hr : ∀ i, CellInMap m.config.treeHeight i → m.getCellValue i = f i) (hroot : m.root ≠ .nil)
    (o : WaveletOp) (ho : NodeInMap m.config.treeHeight o.node) :
    ∃ u, ∀ i, CellInMap m.config.treeHeight i →
      (o.run m).getCellValue i = if NodeRegion o.node i then f i + u else f i := by
  have hpos : 0 < m.config.treeHeight := by have := ho.1; have := ho.2.1; omega
  have hrep : m.Rep fun i => m.getCellValue i := by
    refine ⟨hroot, fun j hj => ?_⟩
    have hin : NodeInMap m.config.treeHeight ⟨0, fun k => j k - 2 ^ (m.config.treeHeight - 1)⟩ := by
      apply cell_nodeInMap hpos
      intro k
      have := hj k
      show -2 ^ (m.config.treeHeight - 1) ≤ j k - 2 ^ (m.config.treeHeight - 1) ∧
        j k - 2 ^ (m.config.treeHeight - 1) < 2 ^ (m.config.treeHeight - 1)
      have e := two_pow_double (a := m.config.treeHeight) (b := m.config.treeHeight - 1) (by omega)
      omega
    simp only [WaveletOctree.getCellValue, WaveletOctree.getNodeValue, WaveletOctree.path, indexAndHeight_zero]
    rw [toInternal_eq m _ hin]
    congr 3
    funext k; simp
  have h := hrep.run hH o ho
  have key : ∀ i, CellInMap m.config.treeHeight i →
      (o.run m).getCellValue i = o.spec m.config.treeHeight (fun i => m.getCellValue i) i := by
    intro i hi
    have := WaveletOctree.Rep.node (by rw [run_treeHeight]; exact hH) h ⟨0, i⟩
      (by rw [run_treeHeight]; exact cell_nodeInMap hpos hi)
    have hg : (o.run m).getCellValue i = (o.run m).getNodeValue ⟨0, i⟩ := by
      rw [WaveletOctree.getCellValue, indexAndHeight_zero]
    rw [hg, this]
    simp only [Int.toNat_zero, pow_zero, mul_one, boxMean]
  cases o with
  | add n u => exact ⟨u, fun i hi => by rw [key i hi]; simp only [WaveletOp.spec, WaveletOp.node, hr i hi]; rfl⟩
  | set n v =>
    exact ⟨_, fun i hi => by rw [key i hi]; simp only [WaveletOp.spec, WaveletOp.node, hr i hi]; rfl⟩

/-- `set` does what it says when the parent's box currently holds one common value, e.g. in a region not
written before. Missing for the full property: other cases, which fail. -/
theorem C17_set_uniform_partial (config : WaveletOctreeConfig) (hH : config.treeHeight ≤ 20) (hpos : 0 < config.treeHeight)
    (ops : List WaveletOp) (hops : ∀ o ∈ ops, NodeInMap config.treeHeight o.node)
    (n : NdtreeIndex 3) (hn : NodeInMap config.treeHeight n) (w v : ℚ)
    (hu : ∀ i, InBox (n.height.toNat + 1) (parentBox config.treeHeight n) i →
      (ops.foldl (WaveletOp.spec config.treeHeight) fun _ => 0) i = w)
    (i : Index 3) (hi : CellInMap config.treeHeight i) :
    let m := ops.foldl WaveletOp.run (WaveletOctree.create config)
    (m.setNodeValue n v).getCellValue i = if NodeRegion n i then v else m.getCellValue i := by
  intro m
  have h1 := (C17_table_partial config hH hpos (ops ++ [.set n v]) (by
    intro o ho
    rcases List.mem_append.1 ho with ho | ho
    · exact hops o ho
    · simp at ho; subst ho; exact hn)).1 i hi
  have h0 := (C17_table_partial config hH hpos ops hops).1 i hi
  simp only [List.foldl_append, List.foldl_cons, List.foldl_nil] at h1
  show (WaveletOp.run m (.set n v)).getCellValue i = _
  rw [h1, h0]
  simp only [WaveletOp.spec]
  rw [boxMean_congr (g := fun _ => w) hu, boxMean_const]
  by_cases hreg : NodeRegion n i
  · rw [if_pos hreg, if_pos hreg]
    have : (ops.foldl (WaveletOp.spec config.treeHeight) fun _ => 0) i = w := by
      apply hu
      intro k
      have hk := hreg k
      simp only [parentBox]
      have e := two_pow_split (h := n.height.toNat) (by have := hn.2.1; have := hn.1; omega : n.height.toNat < config.treeHeight)
      rw [e, ← Int.add_mul, Int.pow_succ, Int.mul_comm (2 ^ n.height.toNat) 2, Int.mul_ediv_mul_of_pos_left _ _ (two_pow_pos' _)]
      generalize (2 : Int) ^ n.height.toNat = w at *
      generalize (2 : Int) ^ (config.treeHeight - 1 - n.height.toNat) = a at *
      generalize hq : (n.position k + a) / 2 = q
      have hw : 0 < w := by nlinarith
      have h1 : n.position k + a = 2 * q ∨ n.position k + a = 2 * q + 1 := by omega
      rcases h1 with h1 | h1
      · have : n.position k = 2 * q - a := by omega
        rw [this] at hk
        constructor <;> nlinarith
      · have : n.position k = 2 * q + 1 - a := by omega
        rw [this] at hk
        constructor <;> nlinarith
    rw [this]; ring
  · rw [if_neg hreg, if_neg hreg]

/-- Finding: `setCellValue` does not overwrite. In a fresh map of height 2, setting cell (0,0,0) to 1 twice
leaves 15/8 in it, and setting its neighbour (1,0,0) to 1 after the first leaves 7/8 there. -/
theorem C17_set_overwrites_fails :
    let m := (WaveletOctree.create ⟨1, -2, 4, 2⟩).setCellValue (fun _ => 0) 1
    let e : Index 3 := fun k => if k = 0 then 1 else 0
    m.getCellValue (fun _ => 0) = 1 ∧ (m.setCellValue (fun _ => 0) 1).getCellValue (fun _ => 0) = 15 / 8 ∧
      (m.setCellValue e 1).getCellValue e = 7 / 8 := by
  decide +kernel

example : -- the hypotheses of the table theorem on a history with cells, a coarse node and negative positions
    (∀ o ∈ [WaveletOp.add ⟨0, fun _ => -8⟩ 1, .add ⟨2, fun _ => 1⟩ 3, .set ⟨0, fun _ => 7⟩ 2, .add ⟨3, fun _ => -1⟩ (-1)],
      NodeInMap 4 o.node) ∧ CellInMap 4 (fun _ => -8) := by
  constructor
  · intro o ho
    simp only [List.mem_cons, List.not_mem_nil, or_false] at ho
    rcases ho with rfl | rfl | rfl | rfl <;> refine ⟨by decide, by decide, fun k => ?_⟩ <;> simp [WaveletOp.node]
  · intro k; simp

example : (([WaveletOp.add ⟨0, fun _ => -2⟩ 1, .add ⟨1, fun _ => -1⟩ 3, .set ⟨0, fun _ => 1⟩ 2].foldl WaveletOp.run
    (WaveletOctree.create ⟨1, -2, 4, 2⟩)).getCellValue fun _ => -2) = 4 := by decide +kernel

/-- A node set in a part of the map that is uniform, after updates elsewhere. -/
example (i : Index 3) (hi : CellInMap 3 i) :
    let m := [WaveletOp.add ⟨0, fun _ => -3⟩ 2].foldl WaveletOp.run (WaveletOctree.create ⟨1, -2, 4, 3⟩)
    (m.setNodeValue ⟨0, fun _ => 2⟩ 3).getCellValue i = if NodeRegion ⟨0, fun _ => 2⟩ i then 3 else m.getCellValue i := by
  refine C17_set_uniform_partial ⟨1, -2, 4, 3⟩ (by decide) (by decide) _ ?_ ⟨0, fun _ => 2⟩ ?_ 0 3 ?_ i hi
  · intro o ho
    simp only [List.mem_cons, List.not_mem_nil, or_false] at ho
    subst ho
    exact ⟨by decide, by decide, fun k => by simp [WaveletOp.node]⟩
  · exact ⟨by decide, by decide, fun k => by simp⟩
  · intro j hj
    have h0 := hj 0
    simp [parentBox] at h0
    simp [WaveletOp.spec, NodeRegion]
    refine ⟨0, fun h => ?_⟩
    omega

end Wavemap
