import Verif.Model.PythonMaps
import Verif.Props.QueryAccelerator
import Verif.Props.Interpolate

/-!
# C77: batch queries of the Python interface; C25 for adaptive clients

Specification: every row of the result is what the map itself says about that row (`getCellValue`, `getNodeValue`,
`pyInterpolateOne`), whatever the other rows are.
-/

namespace Wavemap
open NdtreeIndex Haar

/-- The nodes that a computation asks for if the answers are those of `value`. -/
def Queries.asked {α : Type} (value : NdtreeIndex 3 → ℚ) : Queries α → List (NdtreeIndex 3)
  | .done _ => []
  | .ask n k => n :: asked value (k (value n))

/-! ## Proofs -/

theorem Queries.accelerated_spec {ν α : Type} (w : WaveletNodes ν) (hH : w.treeHeight < 20) (value : NdtreeIndex 3 → ℚ)
    (q : Queries α) (acc : WaveletAccelerator ν) (ha : WaveletAccelerator.Inv w acc)
    (hq : ∀ n ∈ q.asked value, w.Query n ∧ w.value n = value n) :
    ∃ acc', q.accelerated w acc = some (q.eval value, acc') ∧ WaveletAccelerator.Inv w acc' := by
  induction q generalizing acc with
  | done a => exact ⟨acc, rfl, ha⟩
  | ask n k ih =>
    obtain ⟨hn, hv⟩ := hq n (by simp [Queries.asked])
    obtain ⟨a', e, ha'⟩ := WaveletAccelerator.getCellValue_spec w hH acc ha n hn
    rw [hv] at e
    obtain ⟨a'', e', ha''⟩ := ih (value n) a' ha' (fun n' hn' => hq n' (by simp [Queries.asked, hn']))
    exact ⟨a'', by simp only [Queries.accelerated, e, e', Queries.eval], ha''⟩

theorem batchFrom_spec {ν ρ : Type} (w : WaveletNodes ν) (hH : w.treeHeight < 20) (value : NdtreeIndex 3 → ℚ)
    (query : ρ → Queries ℚ) (rows : List ρ) (acc : WaveletAccelerator ν) (ha : WaveletAccelerator.Inv w acc)
    (hq : ∀ r ∈ rows, ∀ n ∈ (query r).asked value, w.Query n ∧ w.value n = value n) :
    batchFrom w query rows acc = some (rows.map fun r => (query r).eval value) := by
  induction rows generalizing acc with
  | nil => rfl
  | cons r rows ih =>
    obtain ⟨a', e, ha'⟩ := Queries.accelerated_spec w hH value (query r) acc ha (hq r (by simp))
    simp only [batchFrom, e, ih a' ha' (fun r hr => hq r (by simp [hr])), List.map_cons]

/-- The corners of the cube around a point, between which `trilinear` interpolates. -/
def cubeCorner (width : ℚ) (p : Point 3) (k : Nat) : Index 3 := fun i =>
  pointToFloorIndex p (1 / width) i + Interpolate.offset k i

theorem trilinear_eval (width : ℚ) (f : NdtreeIndex 3 → ℚ) (p : Point 3) :
    (trilinearQueries width p).eval f = Interpolate.trilinear width (fun i => f ⟨0, i⟩) p := by
  simp [trilinearQueries, gatherCorners, Queries.eval, Interpolate.trilinear]

theorem trilinear_asked (width : ℚ) (f : NdtreeIndex 3 → ℚ) (p : Point 3) :
    (trilinearQueries width p).asked f = (List.range 8).map fun k => ⟨0, cubeCorner width p k⟩ := by
  simp only [trilinearQueries, gatherCorners, Queries.asked]
  rfl

theorem nodeQuery_cell {H : Nat} {i : Index 3} (h : Int32Index i) : NodeQuery H ⟨0, i⟩ := by
  refine ⟨by simp, by simp, ?_⟩
  have : nodeIndexToMinCornerIndex (⟨0, i⟩ : NdtreeIndex 3) = i := by
    funext k
    simp [nodeIndexToMinCornerIndex, multExp2_eq]
  rwa [this]

/-- Rows that the batch functions are meant for: 32-bit cell indices; nodes of the map; points whose cells (for
`trilinear`, and their upper neighbours) have 32-bit indices. -/
structure RowsOk (H : Nat) (width : ℚ) (cells : List (Index 3)) (nodes : List (Fin 4 → Int)) (points : List (Point 3)) : Prop where
  cells : ∀ i ∈ cells, Int32Index i
  nodes : ∀ r ∈ nodes, NodeQuery H ⟨r 0, fun i => r i.succ⟩
  nearest : ∀ p ∈ points, Int32Index (pointToNearestIndex p (1 / width))
  corners : ∀ p ∈ points, ∀ k < 8, Int32Index (cubeCorner width p k)

theorem batches_spec {ν : Type} (w : WaveletNodes ν) (hH : w.treeHeight < 20) (width : ℚ)
    (cell : Index 3 → ℚ) (node : NdtreeIndex 3 → ℚ) (hcell : ∀ i, node ⟨0, i⟩ = cell i)
    (hq : ∀ n, NodeQuery w.treeHeight n → w.Query n ∧ w.value n = node n)
    (cells : List (Index 3)) (nodes : List (Fin 4 → Int)) (points : List (Point 3))
    (ok : RowsOk w.treeHeight width cells nodes points) (mode : InterpolationMode) :
    pyCellValues w cells = some (cells.map cell) ∧
    pyNodeValues w nodes = some (nodes.map fun r => node ⟨r 0, fun i => r i.succ⟩) ∧
    pyInterpolate w width mode points = some (points.map (pyInterpolateOne width cell mode)) := by
  have h0 := WaveletAccelerator.fresh_inv w
  refine ⟨?_, ?_, ?_⟩
  · rw [pyCellValues, batch, batchFrom_spec w hH node _ _ _ h0]
    · congr 1
      exact List.map_congr_left fun i _ => by simp only [Queries.eval, hcell]
    · intro i hi n hn
      simp only [Queries.asked, List.mem_singleton] at hn
      subst hn
      exact hq _ (nodeQuery_cell (ok.cells i hi))
  · rw [pyNodeValues, batch, batchFrom_spec w hH node _ _ _ h0]
    · rfl
    · intro r hr n hn
      simp only [Queries.asked, List.mem_singleton] at hn
      subst hn
      exact hq _ (ok.nodes r hr)
  · cases mode with
    | nearest =>
      rw [pyInterpolate, batch, batchFrom_spec w hH node _ _ _ h0]
      · congr 1
        exact List.map_congr_left fun p _ => by
          simp only [nearestQueries, Queries.eval, hcell, pyInterpolateOne, Interpolate.nearestNeighbor]
      · intro p hp n hn
        simp only [nearestQueries, Queries.asked, List.mem_singleton] at hn
        subst hn
        exact hq _ (nodeQuery_cell (ok.nearest p hp))
    | trilinear =>
      rw [pyInterpolate, batch, batchFrom_spec w hH node _ _ _ h0]
      · congr 1
        exact List.map_congr_left fun p _ => by simp only [trilinear_eval, hcell, pyInterpolateOne]
      · intro p hp n hn
        rw [trilinear_asked] at hn
        obtain ⟨k, hk, rfl⟩ := List.mem_map.mp hn
        exact hq _ (nodeQuery_cell (ok.corners p hp k (List.mem_range.mp hk)))

theorem HashedWaveletOctree.getNodeValue_cell (m : HashedWaveletOctree) (i : Index 3) : m.getNodeValue ⟨0, i⟩ = m.getCellValue i := by
  have : nodeIndexToMinCornerIndex (⟨0, i⟩ : NdtreeIndex 3) = i := by
    funext k
    simp [nodeIndexToMinCornerIndex, multExp2_eq]
  simp only [HashedWaveletOctree.getNodeValue, HashedWaveletOctree.getCellValue, HashedWaveletOctree.nodeToBlockIndex, this]

theorem HashedChunkedWaveletOctree.getNodeValue_cell (m : HashedChunkedWaveletOctree) (i : Index 3) :
    m.getNodeValue ⟨0, i⟩ = m.getCellValue i := by
  have : nodeIndexToMinCornerIndex (⟨0, i⟩ : NdtreeIndex 3) = i := by
    funext k
    simp [nodeIndexToMinCornerIndex, multExp2_eq]
  simp only [HashedChunkedWaveletOctree.getNodeValue, HashedChunkedWaveletOctree.getCellValue,
    HashedChunkedWaveletOctree.nodeToBlockIndex, this]

theorem HashedWaveletOctree.accelerable {m : HashedWaveletOctree} (hm : m.Reachable) (n : NdtreeIndex 3)
    (hn : NodeQuery m.config.treeHeight n) : m.nodes.Query n ∧ m.nodes.value n = m.getNodeValue n :=
  ⟨hn.query hm.inv.pos m.nodes rfl rfl, HashedWaveletOctree.nodes_value hm.inv n hn⟩

/-- A chunked map after a history: its config, and that its accelerator is asked within its limits. -/
theorem HashedChunkedWaveletOctree.accelerable {config : HashedWaveletOctreeConfig} (hc : config.isValidChunked = true)
    (history : List HashedWaveletOp) :
    ∃ c, runChunkedMap config history = some c ∧ c.config = config ∧ c.config.treeHeight < 20 ∧
      ∀ n, NodeQuery c.config.treeHeight n → c.nodes.Query n ∧ c.nodes.value n = c.getNodeValue n := by
  obtain ⟨c, h1, h2, h3⟩ := HashedChunkedWaveletOctree.run_rel hc history
  have hcfg : c.config = config := by
    rw [h2.config]
    have : ∀ (ops : List HashedWaveletOp) (m : HashedWaveletOctree), (ops.foldl HashedWaveletOp.run m).config = m.config := by
      intro ops
      induction ops with
      | nil => intro m; rfl
      | cons o ops ih => intro m; rw [List.foldl_cons, ih, HashedWaveletOctree.run_config]
    exact this history _
  have hle : config.treeHeight ≤ 9 := by
    simp only [HashedWaveletOctreeConfig.isValidChunked, Bool.and_eq_true, decide_eq_true_eq] at hc
    exact hc.2
  refine ⟨c, h1, hcfg, by rw [hcfg]; omega, ?_⟩
  intro n hn
  exact ⟨hn.query (by rw [h2.config]; exact h3.pos) c.nodes rfl rfl, HashedChunkedWaveletOctree.nodes_value h2 h3 n hn⟩

/-! ## Properties -/

/-- C25 for clients whose queries depend on earlier answers (such as searches and propagation): on a new accelerator
the computation never fails and has the result that it has when it asks the map itself. Missing: tree height 20, see
`C25_stack_overflow_fails`. -/
theorem C25_adaptive_partial {α : Type} (m : HashedWaveletOctree) (hm : m.Reachable) (hH : m.config.treeHeight < 20)
    (q : Queries α) (hq : ∀ n ∈ q.asked m.getNodeValue, NodeQuery m.config.treeHeight n) :
    (q.accelerated m.nodes (.fresh m.nodes)).map Prod.fst = some (q.eval m.getNodeValue) := by
  obtain ⟨acc, e, _⟩ := Queries.accelerated_spec m.nodes hH m.getNodeValue q _ (WaveletAccelerator.fresh_inv _)
    (fun n hn => HashedWaveletOctree.accelerable hm n (hq n hn))
  rw [e]
  rfl

/-- The same for the chunked map, at every tree height. -/
theorem C25_adaptive_chunked {α : Type} (config : HashedWaveletOctreeConfig) (hc : config.isValidChunked = true)
    (history : List HashedWaveletOp) :
    ∃ c, runChunkedMap config history = some c ∧ ∀ q : Queries α,
      (∀ n ∈ q.asked c.getNodeValue, NodeQuery config.treeHeight n) →
      (q.accelerated c.nodes (.fresh c.nodes)).map Prod.fst = some (q.eval c.getNodeValue) := by
  obtain ⟨c, h1, h2, h3, h4⟩ := HashedChunkedWaveletOctree.accelerable hc history
  refine ⟨c, h1, fun q hq => ?_⟩
  obtain ⟨acc, e, _⟩ := Queries.accelerated_spec c.nodes h3 c.getNodeValue q _ (WaveletAccelerator.fresh_inv _)
    (fun n hn => h4 n (by rw [h2]; exact hq n hn))
  rw [e]
  rfl

/-- Batch queries on a hashed wavelet octree, after every history: row by row the values that the map has. Missing:
tree height 20. -/
theorem C77_hashed_partial (m : HashedWaveletOctree) (hm : m.Reachable) (hH : m.config.treeHeight < 20)
    (cells : List (Index 3)) (nodes : List (Fin 4 → Int)) (points : List (Point 3))
    (ok : RowsOk m.config.treeHeight m.config.minCellWidth cells nodes points) (mode : InterpolationMode) :
    pyCellValues m.nodes cells = some (cells.map m.getCellValue) ∧
    pyNodeValues m.nodes nodes = some (nodes.map fun r => m.getNodeValue ⟨r 0, fun i => r i.succ⟩) ∧
    pyInterpolate m.nodes m.config.minCellWidth mode points =
      some (points.map (pyInterpolateOne m.config.minCellWidth m.getCellValue mode)) :=
  batches_spec m.nodes hH m.config.minCellWidth m.getCellValue m.getNodeValue m.getNodeValue_cell
    (fun n hn => HashedWaveletOctree.accelerable hm n hn) cells nodes points ok mode

/-- Batch queries on a hashed chunked wavelet octree, after every history. -/
theorem C77_chunked (config : HashedWaveletOctreeConfig) (hc : config.isValidChunked = true) (history : List HashedWaveletOp) :
    ∃ c, runChunkedMap config history = some c ∧
      ∀ (cells : List (Index 3)) (nodes : List (Fin 4 → Int)) (points : List (Point 3)) (mode : InterpolationMode),
        RowsOk config.treeHeight config.minCellWidth cells nodes points →
        pyCellValues c.nodes cells = some (cells.map c.getCellValue) ∧
        pyNodeValues c.nodes nodes = some (nodes.map fun r => c.getNodeValue ⟨r 0, fun i => r i.succ⟩) ∧
        pyInterpolate c.nodes config.minCellWidth mode points =
          some (points.map (pyInterpolateOne config.minCellWidth c.getCellValue mode)) := by
  obtain ⟨c, h1, h2, h3, h4⟩ := HashedChunkedWaveletOctree.accelerable hc history
  refine ⟨c, h1, fun cells nodes points mode ok => ?_⟩
  refine batches_spec c.nodes h3 config.minCellWidth c.getCellValue c.getNodeValue c.getNodeValue_cell h4 cells nodes points ?_ mode
  show RowsOk c.config.treeHeight _ _ _ _
  rw [h2]
  exact ok

/-- A query of one cell and the batch query with only that cell differ for the tallest accepted maps: the latter
accesses an array out of bounds. -/
theorem C77_tallest_fails :
    HashedWaveletOctreeConfig.isValid ⟨1, -2, 4, 20, 5⟩ = true ∧
    ∀ (m : HashedWaveletOctree) (i : Index 3), m.config.treeHeight = 20 → Int32Index i →
      pyCellValues m.nodes [i] = none := by
  refine ⟨C25_stack_overflow_fails.1, fun m i hH hi => ?_⟩
  have h := C25_stack_overflow_fails.2 m ⟨0, i⟩ [] hH (nodeQuery_cell hi)
  simp only [WaveletAccelerator.answers] at h
  simp only [pyCellValues, batch, batchFrom, Queries.accelerated]
  cases hg : WaveletAccelerator.getCellValue m.nodes (.fresh m.nodes) ⟨0, i⟩ with
  | none => rfl
  | some x => rw [hg] at h; cases h

/-! ## Non-vacuity -/

example : -- rows in several blocks and of several heights
    let m := [HashedWaveletOp.write (.add (fun _ => -6) 1 0), .write (.add (fun _ => 5) 8 0)].foldl HashedWaveletOp.run
      (HashedWaveletOctree.create ⟨1, -2, 4, 3, 5⟩)
    m.Reachable ∧ m.config.treeHeight < 20 ∧
    RowsOk m.config.treeHeight m.config.minCellWidth [fun _ => 5, fun _ => -6] [![1, 2, 2, 2], ![3, -1, -1, -1]] [fun _ => 11 / 2, fun _ => 6] ∧
    pyCellValues m.nodes [fun _ => 5, fun _ => -6] = some [8, 1] ∧
    pyNodeValues m.nodes [![1, 2, 2, 2], ![3, -1, -1, -1]] = some [1, 1 / 512] ∧
    pyInterpolate m.nodes m.config.minCellWidth .trilinear [fun _ => 11 / 2, fun _ => 6] = some [8, 1] := by
  refine ⟨⟨_, by decide +kernel, by decide, _, rfl⟩, by decide, ⟨?_, ?_, ?_, ?_⟩, by decide +kernel, by decide +kernel, by decide +kernel⟩
  · intro i hi
    simp only [List.mem_cons, List.not_mem_nil, or_false] at hi
    rcases hi with rfl | rfl <;> exact fun k => by revert k; decide
  · intro r hr
    simp only [List.mem_cons, List.not_mem_nil, or_false] at hr
    rcases hr with rfl | rfl <;> exact ⟨by decide, by decide, fun k => by revert k; decide⟩
  · intro p hp
    simp only [List.mem_cons, List.not_mem_nil, or_false] at hp
    rcases hp with rfl | rfl <;> exact fun k => by revert k; decide +kernel
  · intro p hp
    simp only [List.mem_cons, List.not_mem_nil, or_false] at hp
    rcases hp with rfl | rfl <;> exact fun j hj k => by revert k; revert j; decide +kernel

/-- A caller that asks for a second cell that depends on the first one's value. -/
example :
    let m := [HashedWaveletOp.write (.add (fun _ => -6) 1 0), .write (.add (fun _ => 5) 8 0)].foldl HashedWaveletOp.run
      (HashedWaveletOctree.create ⟨1, -2, 4, 3, 5⟩)
    let q : Queries ℚ := .ask ⟨0, fun _ => 5⟩ fun v => if 4 < v then .ask ⟨1, fun _ => -3⟩ .done else .done v
    (q.accelerated m.nodes (.fresh m.nodes)).map Prod.fst = some (q.eval m.getNodeValue) ∧ q.eval m.getNodeValue = 1 / 8 := by
  intro m q
  refine ⟨C25_adaptive_partial m ⟨_, by decide +kernel, by decide, _, rfl⟩ (by decide) q ?_, by decide +kernel⟩
  have e : q.asked m.getNodeValue = [⟨0, fun _ => 5⟩, ⟨1, fun _ => -3⟩] := by
    have h : 4 < m.getNodeValue ⟨0, fun _ => 5⟩ := by decide +kernel
    simp only [q, Queries.asked, if_pos h]
  rw [e]
  intro n hn
  simp only [List.mem_cons, List.not_mem_nil, or_false] at hn
  rcases hn with rfl | rfl <;> exact ⟨by decide, by decide, fun k => by revert k; decide⟩

end Wavemap
