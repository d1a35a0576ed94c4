import Verif.Lemmas.QueryAccelerator
import Verif.Props.ChunkedWavelet
import Verif.Props.IndexBounds
/-!
# C25: query accelerators

Specification: whatever was asked before, the accelerator gives the answer of the map (`getNodeValue` is the map's own
`getCellValue(OctreeIndex)`, `getCellValue` its `getCellValue(Index3D)`).
-/
namespace Wavemap
open NdtreeIndex Haar

/-- Calls on an accelerator. -/
inductive QueryOp where
  /-- `getCellValue(n)` -/
  | query (n : NdtreeIndex 3)
  /-- `reset()` -/
  | reset

/-- The answers to a sequence of calls on an accelerator in state `a`; `none` if one of them has undefined behaviour. -/
def WaveletAccelerator.answers {ν : Type} (w : WaveletNodes ν) : WaveletAccelerator ν → List QueryOp → Option (List ℚ)
  | _, [] => some []
  | a, .query n :: ops =>
    match getCellValue w a n with
    | none => none
    | some (v, a') => (answers w a' ops).map (v :: ·)
  | _, .reset :: ops => answers w (fresh w) ops

/-- The nodes that are asked for. -/
def QueryOp.queries : List QueryOp → List (NdtreeIndex 3)
  | [] => []
  | .query n :: ops => n :: queries ops
  | .reset :: ops => queries ops

/-- A node of the map: its height is between 0 and the tree height and its cells have 32-bit indices. -/
def NodeQuery (H : Nat) (n : NdtreeIndex 3) : Prop :=
  0 ≤ n.height ∧ n.height ≤ H ∧ Int32Index (nodeIndexToMinCornerIndex n)

/-! ## Proofs -/

namespace WaveletAccelerator
variable {ν : Type} (w : WaveletNodes ν)

theorem fresh_inv : Inv w (fresh w) := .fresh rfl

theorem answers_spec (hH : w.treeHeight < 20) : ∀ (ops : List QueryOp) (a : WaveletAccelerator ν), Inv w a →
    (∀ n ∈ QueryOp.queries ops, w.Query n) → answers w a ops = some ((QueryOp.queries ops).map w.value) := by
  intro ops
  induction ops with
  | nil => intro a _ _; rfl
  | cons op ops ih =>
    intro a ha hq
    cases op with
    | query n =>
      obtain ⟨a', e, ha'⟩ := getCellValue_spec w hH a ha n (hq n (List.mem_cons_self ..))
      simp only [answers, e, QueryOp.queries, List.map_cons]
      rw [ih a' ha' fun n' hn' => hq n' (List.mem_cons_of_mem _ hn')]
      rfl
    | reset =>
      simp only [answers, QueryOp.queries]
      exact ih _ (fresh_inv w) hq

end WaveletAccelerator

theorem blockOfNode_eq {H : Nat} (n : NdtreeIndex 3) (h0 : 0 ≤ n.height) (hn : n.height ≤ H) :
    indexToBlockIndex H (nodeIndexToMinCornerIndex n) = blockOfNode H n := by
  funext i
  simp only [indexToBlockIndex, nodeIndexToMinCornerIndex, blockOfNode, divExp2Floor_eq, multExp2_eq]
  have hp := two_pow_pos' n.height.toNat
  have : (2 : Int) ^ H = 2 ^ n.height.toNat * 2 ^ (H - n.height.toNat) := by
    rw [← Int.pow_add]; congr 1; omega
  rw [this, ← Int.ediv_ediv_of_nonneg (Int.le_of_lt hp), Int.mul_ediv_cancel _ (Int.ne_of_gt hp)]

theorem block_ne_noBlock {H : Nat} (hH : 0 < H) (i : Index 3) (h32 : Int32Index i) : indexToBlockIndex H i ≠ noBlockIndex := by
  intro he
  have h := congrFun he 0
  simp only [indexToBlockIndex, divExp2Floor_eq, noBlockIndex] at h
  have h1 := (h32 0).2
  have h2 : (2 : Int) ≤ 2 ^ H := by
    obtain ⟨k, rfl⟩ : ∃ k, H = k + 1 := ⟨H - 1, by omega⟩
    have := two_pow_pos' k
    rw [Int.pow_succ]; omega
  have hp := two_pow_pos' H
  have h3 := Int.ediv_mul_le (i 0) (Int.ne_of_gt hp)
  rw [h] at h3
  have : 2147483647 * 2 ≤ 2147483647 * (2 : Int) ^ H := Int.mul_le_mul_of_nonneg_left h2 (by decide)
  omega

theorem NodeQuery.query {H : Nat} (hH : 0 < H) {n : NdtreeIndex 3} (h : NodeQuery H n) {ν : Type} (w : WaveletNodes ν)
    (e1 : w.treeHeight = H) (e2 : w.blockIndex n = indexToBlockIndex H (nodeIndexToMinCornerIndex n)) : w.Query n :=
  ⟨h.1, by rw [e1]; exact h.2.1, by rw [e2, e1, blockOfNode_eq n h.1 h.2.1],
    by rw [e2]; exact block_ne_noBlock hH _ h.2.2⟩

theorem HashedWaveletOctree.nodes_walk (m : HashedWaveletOctree) : ∀ (p : List (Fin (2 ^ 3))) (t : WTree) (v : ℚ), t ≠ .nil →
    m.nodes.walkValue (some t) v p = t.getValue v p := by
  intro p
  induction p with
  | nil => intro t v _; rw [WTree.getValue_nil_path]; rfl
  | cons c p ih =>
    intro t v ht
    rw [WTree.getValue_cons t ht]
    simp only [WaveletNodes.walkValue]
    have hd : m.nodes.data t = WTree.details t := rfl
    have hc : m.nodes.child t c = if (t.child c).isNil then none else some (t.child c) := rfl
    rw [hd, hc]
    by_cases hn : t.child c = .nil
    · rw [if_pos (NTree.isNil_iff.2 hn), hn, WTree.getValue_nil, m.nodes.walkValue_none]
    · rw [if_neg (by rw [NTree.isNil_iff]; exact hn)]; exact ih _ _ hn

theorem HashedWaveletOctree.nodes_value {m : HashedWaveletOctree} (hm : m.Inv) (n : NdtreeIndex 3)
    (hn : NodeQuery m.config.treeHeight n) : m.nodes.value n = m.getNodeValue n := by
  unfold WaveletNodes.value HashedWaveletOctree.getNodeValue
  have hgb : m.nodes.getBlock (m.nodes.blockIndex n) = (m.blocks.getBlock (m.nodeToBlockIndex n)).map fun b => (b.root, b.rootScale) := rfl
  rw [hgb]
  cases hg : m.blocks.getBlock (m.nodeToBlockIndex n) with
  | none => rfl
  | some b =>
    have hb := hm.ok _ _ hg
    show m.nodes.walkValue (some b.root) b.rootScale _ = b.root.getValue b.rootScale (nodePath b.treeHeight (cellInBlock m.config.treeHeight n))
    rw [m.nodes_walk _ _ _ hb.root, hb.height, nodePath_cellInBlock hm.le n hn.1 hn.2.1]
    rfl

theorem HashedChunkedWaveletOctree.nodes_walk (m : HashedChunkedWaveletOctree) (s : WChunks) : ∀ (p : List (Fin (2 ^ 3))) (r : ChunkNode) (v : ℚ),
    m.nodes.walkValue (some (s, r)) v p = s.getValue r v p := by
  intro p
  induction p with
  | nil => intro r v; rfl
  | cons c p ih =>
    intro r v
    simp only [WaveletNodes.walkValue, WChunks.getValue]
    have hd : m.nodes.data (s, r) = WChunks.details s r := rfl
    have hc : m.nodes.child (s, r) c = (s.getChild 3 chunkHeight r c).map fun r => (s, r) := rfl
    rw [hd, hc]
    cases s.getChild 3 chunkHeight r c with
    | none => exact m.nodes.walkValue_none _ _
    | some r' => exact ih _ _

theorem HashedChunkedWaveletOctree.nodes_value {c : HashedChunkedWaveletOctree} {m : HashedWaveletOctree} (h : c.Rel m) (hm : m.Inv)
    (n : NdtreeIndex 3) (hn : NodeQuery c.config.treeHeight n) : c.nodes.value n = c.getNodeValue n := by
  unfold WaveletNodes.value HashedChunkedWaveletOctree.getNodeValue
  have hgb : c.nodes.getBlock (c.nodes.blockIndex n) =
    (c.blocks.getBlock (c.nodeToBlockIndex n)).map fun b => ((b.chunks, ChunkNode.root), b.rootScale) := rfl
  rw [hgb]
  rcases HashedChunkedWaveletOctree.blocks_get h.blocks (c.nodeToBlockIndex n) with ⟨h1, h2⟩ | ⟨x, b, h1, h2, h3⟩
  · rw [h1]; rfl
  · rw [h1]
    have hb := hm.ok _ _ h2
    have hH : x.treeHeight = c.config.treeHeight := by rw [h3.height, hb.height, h.config]
    show c.nodes.walkValue (some (x.chunks, ChunkNode.root)) x.rootScale _ =
      x.chunks.getValue .root x.rootScale (nodePath x.treeHeight (cellInBlock c.config.treeHeight n))
    rw [c.nodes_walk, hH, nodePath_cellInBlock (by rw [h.config]; exact hm.le) n hn.1 hn.2.1]
    rfl

/-! ## Properties -/

/-- C25 for `HashedWaveletOctree`: for every reachable map and every sequence of queries and resets, each query succeeds and gives
the map's own answer for that node. Missing: tree heights of 20, for which the stacks are one element too short
(`C25_stack_overflow_fails`). -/
theorem C25_hashed_wavelet_partial (m : HashedWaveletOctree) (hm : m.Reachable) (hH : m.config.treeHeight < 20) (ops : List QueryOp)
    (hq : ∀ n ∈ QueryOp.queries ops, NodeQuery m.config.treeHeight n) :
    WaveletAccelerator.answers m.nodes (.fresh m.nodes) ops = some ((QueryOp.queries ops).map m.getNodeValue) := by
  have hi := hm.inv
  rw [WaveletAccelerator.answers_spec m.nodes hH ops _ (WaveletAccelerator.fresh_inv _)
    fun n hn => (hq n hn).query hi.pos m.nodes rfl rfl]
  congr 1
  exact List.map_congr_left fun n hn => HashedWaveletOctree.nodes_value hi n (hq n hn)

/-- C25 for `HashedChunkedWaveletOctree`, whose tree height is at most 9: for every reachable map and every sequence of queries and
resets, each query succeeds and gives the map's own answer for that node. -/
theorem C25_chunked_wavelet (config : HashedWaveletOctreeConfig) (hc : config.isValidChunked = true) (history : List HashedWaveletOp)
    (ops : List QueryOp) (hq : ∀ n ∈ QueryOp.queries ops, NodeQuery config.treeHeight n) :
    ∃ c, runChunkedMap config history = some c ∧
      WaveletAccelerator.answers c.nodes (.fresh c.nodes) ops = some ((QueryOp.queries ops).map c.getNodeValue) := by
  obtain ⟨c, h1, h2, h3⟩ := HashedChunkedWaveletOctree.run_rel hc history
  have hcfg : c.config = config := by
    rw [h2.config]
    have : ∀ (ops : List HashedWaveletOp) (m : HashedWaveletOctree), (ops.foldl HashedWaveletOp.run m).config = m.config := by
      intro ops
      induction ops with
      | nil => intro m; rfl
      | cons o ops ih => intro m; rw [List.foldl_cons, ih, HashedWaveletOctree.run_config]
    exact this history _
  refine ⟨c, h1, ?_⟩
  have hpos : 0 < config.treeHeight := by rw [← hcfg, h2.config]; exact h3.pos
  have hle : config.treeHeight ≤ 9 := by
    simp only [HashedWaveletOctreeConfig.isValidChunked, Bool.and_eq_true, decide_eq_true_eq] at hc
    exact hc.2
  have hq' : ∀ n ∈ QueryOp.queries ops, NodeQuery c.config.treeHeight n := by rw [hcfg]; exact hq
  rw [WaveletAccelerator.answers_spec c.nodes (show c.config.treeHeight < 20 by rw [hcfg]; omega) ops _ (WaveletAccelerator.fresh_inv _)
    fun n hn => (hq' n hn).query (by rw [hcfg]; exact hpos) c.nodes rfl rfl]
  congr 1
  exact List.map_congr_left fun n hn => HashedChunkedWaveletOctree.nodes_value h2 h3 n (hq' n hn)

example : -- queries that reuse the stacks at different heights, in allocated and missing blocks, on both sides of the origin
    let m := [HashedWaveletOp.write (.add (fun _ => -6) 1 0), .write (.add (fun _ => 5) 8 0)].foldl HashedWaveletOp.run
      (HashedWaveletOctree.create ⟨1, -2, 4, 3, 5⟩)
    let ops : List QueryOp := [.query ⟨0, fun _ => 5⟩, .query ⟨1, fun _ => 2⟩, .query ⟨0, ![4, 5, 5]⟩, .query ⟨3, fun _ => -1⟩,
      .query ⟨0, fun _ => -6⟩, .query ⟨0, fun _ => 20⟩, .query ⟨2, fun _ => 7⟩, .reset, .query ⟨0, fun _ => 5⟩]
    m.Reachable ∧ m.config.treeHeight < 20 ∧ (∀ n ∈ QueryOp.queries ops, NodeQuery m.config.treeHeight n) ∧
      WaveletAccelerator.answers m.nodes (.fresh m.nodes) ops = some [8, 1, 0, 1 / 512, 1, 0, 0, 8] := by
  refine ⟨⟨_, by decide +kernel, by decide, _, rfl⟩, by decide, ?_, by decide +kernel⟩
  intro n hn
  simp only [QueryOp.queries, List.mem_cons, List.not_mem_nil, or_false] at hn
  rcases hn with rfl | rfl | rfl | rfl | rfl | rfl | rfl | rfl <;>
    exact ⟨by decide, by decide, fun k => by revert k; decide⟩

example : -- the same for the chunked map
    ∃ c, runChunkedMap ⟨1, -2, 4, 5, 5⟩ [.write (.add (fun _ => -6) 1 0), .write (.add (fun _ => 5) 8 0)] = some c ∧
      WaveletAccelerator.answers c.nodes (.fresh c.nodes) [.query ⟨0, fun _ => 5⟩, .query ⟨1, fun _ => 2⟩, .query ⟨0, fun _ => -6⟩] =
        some [8, 1, 1] := by
  exact ⟨_, rfl, by decide +kernel⟩

/-- C25 fails for the largest accepted trees: with a tree height of 20 the first query after construction or a reset accesses the
stacks out of bounds, whatever the content of the map. -/
theorem C25_stack_overflow_fails :
    HashedWaveletOctreeConfig.isValid ⟨1, -2, 4, 20, 5⟩ = true ∧
    ∀ (m : HashedWaveletOctree) (n : NdtreeIndex 3) (ops : List QueryOp), m.config.treeHeight = 20 → NodeQuery 20 n →
      WaveletAccelerator.answers m.nodes (.fresh m.nodes) (.query n :: ops) = none := by
  refine ⟨by decide +kernel, ?_⟩
  intro m n ops hH hn
  have hw : m.nodes.treeHeight = 20 := hH
  have hput : ∀ {α : Type} (s : Nat → α) (a : α), stackPut s m.nodes.treeHeight a = none := by
    intro α s a
    rw [hw]; exact if_neg (by decide)
  have hne : m.nodes.blockIndex n ≠ (WaveletAccelerator.fresh m.nodes).blockIndex := by
    have : m.nodes.blockIndex n = indexToBlockIndex m.config.treeHeight (nodeIndexToMinCornerIndex n) := rfl
    rw [this, hH]; exact block_ne_noBlock (by decide) _ hn.2.2
  have : WaveletAccelerator.getCellValue m.nodes (.fresh m.nodes) n = none := by
    unfold WaveletAccelerator.getCellValue
    dsimp only
    rw [if_neg hne]
    cases m.nodes.getBlock (m.nodes.blockIndex n) with
    | none => dsimp only; rw [hput]
    | some x => obtain ⟨r, s⟩ := x; dsimp only; rw [hput]
  simp only [WaveletAccelerator.answers, this]

/-! ## Dense block hash -/

/-- The answers of the accelerator of a `DenseBlockHash` to `getValue` calls; `none` in the list of calls is a `reset()`. -/
def DenseAccelerator.answers {d log2 : Nat} {α : Type} (m : DenseBlockHash d log2 α) : DenseAccelerator d α → List (Option (Index d)) →
    List (Option α)
  | _, [] => []
  | a, some i :: ops => (getValue m a i).1 :: answers m (getValue m a i).2 ops
  | _, none :: ops => answers m fresh ops

theorem DenseAccelerator.answers_spec {d log2 : Nat} {α : Type} (m : DenseBlockHash d log2 α) : ∀ (ops : List (Option (Index d)))
    (a : DenseAccelerator d α), (a.blockIndex = noBlockIndex ∨ a.block = m.blockMap.getBlock a.blockIndex) →
    (∀ i, some i ∈ ops → indexToBlockIndex log2 i ≠ noBlockIndex) →
    answers m a ops = (ops.filterMap id).map m.getValue := by
  intro ops
  induction ops with
  | nil => intros; rfl
  | cons op ops ih =>
    intro a ha hq
    cases op with
    | none =>
      rw [List.filterMap_cons_none rfl]
      exact ih fresh (Or.inl rfl) fun i hi => hq i (List.mem_cons_of_mem _ hi)
    | some i =>
      rw [List.filterMap_cons_some (f := id) (a := some i) (b := i) rfl, List.map_cons]
      have hb := hq i (List.mem_cons_self ..)
      have key : (getBlock m a (indexToBlockIndex log2 i)).2 = ⟨indexToBlockIndex log2 i, m.blockMap.getBlock (indexToBlockIndex log2 i)⟩ ∧
          (getBlock m a (indexToBlockIndex log2 i)).1 = m.blockMap.getBlock (indexToBlockIndex log2 i) := by
        unfold getBlock
        by_cases h : indexToBlockIndex log2 i = a.blockIndex
        · simp only [h, ne_eq, not_true_eq_false, if_false]
          rcases ha with h1 | h1
          · exact absurd (h.trans h1) hb
          · rw [← h1]; exact ⟨rfl, rfl⟩
        · simp only [ne_eq, h, not_false_eq_true, if_true]; exact ⟨trivial, trivial⟩
      show (getValue m a i).1 :: answers m (getValue m a i).2 ops = _
      congr 1
      · show ((getBlock m a (indexToBlockIndex log2 i)).1.map fun g => g.at log2 (indexToCellIndex log2 i)) = _
        rw [key.2]; rfl
      · refine ih _ ?_ fun i hi => hq i (List.mem_cons_of_mem _ hi)
        show (getBlock m a (indexToBlockIndex log2 i)).2.blockIndex = _ ∨ _
        rw [show (getValue m a i).2 = (getBlock m a (indexToBlockIndex log2 i)).2 from rfl, key.1]
        exact Or.inr rfl

/-- C25 for `DenseBlockHash` with blocks of more than one cell: every sequence of queries of cells with 32-bit indices and resets
gives the answers of the container itself. -/
theorem C25_dense {d log2 : Nat} {α : Type} (hd : 0 < d) (hlog : 0 < log2) (m : DenseBlockHash d log2 α) (ops : List (Option (Index d)))
    (hq : ∀ i, some i ∈ ops → ∀ k, -2147483648 ≤ i k ∧ i k ≤ 2147483647) :
    DenseAccelerator.answers m .fresh ops = (ops.filterMap id).map m.getValue := by
  refine DenseAccelerator.answers_spec m ops _ (Or.inl rfl) fun i hi he => ?_
  have h := congrFun he ⟨0, hd⟩
  simp only [indexToBlockIndex, divExp2Floor_eq, noBlockIndex] at h
  have h1 := (hq i hi ⟨0, hd⟩).2
  have h2 : (2 : Int) ≤ 2 ^ log2 := by
    obtain ⟨k, rfl⟩ : ∃ k, log2 = k + 1 := ⟨log2 - 1, by omega⟩
    have := two_pow_pos' k
    rw [Int.pow_succ]; omega
  have hp := two_pow_pos' log2
  have h3 := Int.ediv_mul_le (i ⟨0, hd⟩) (Int.ne_of_gt hp)
  rw [h] at h3
  have : 2147483647 * 2 ≤ 2147483647 * (2 : Int) ^ log2 := Int.mul_le_mul_of_nonneg_left h2 (by decide)
  omega

example : -- alternating between blocks, one of them missing
    let m : DenseBlockHash 3 4 ℚ := ((DenseBlockHash.create (7 : ℚ)).updateValue (fun _ => 3) fun _ => 1).updateValue (fun _ => -3) fun _ => 2
    DenseAccelerator.answers m .fresh [some fun _ => 3, some fun _ => 4, some fun _ => -3, some fun _ => 40, none, some fun _ => 3] =
      [some 1, some 7, some 2, none, some 1] := by
  decide +kernel

/-! ## Spatial hash -/

/-- Calls on the accelerator of a `SpatialHash`, which may allocate. -/
inductive SpatialQueryOp (d : Nat) (β : Type) where
  /-- `getBlock(b)` -/
  | get (b : Index d)
  /-- `getOrAllocateBlock(b, args...)` -/
  | alloc (b : Index d) (dflt : β)
  /-- `reset()` -/
  | reset

namespace SpatialQueryOp
variable {d : Nat} {β : Type}

/-- The block asked for. -/
def target : SpatialQueryOp d β → Option (Index d)
  | get b => some b
  | alloc b _ => some b
  | reset => none

/-- The call through the accelerator: the hash afterwards, the accelerator, and the block the result refers to. -/
def runAccelerated (m : SpatialHash d β) (a : SpatialAccelerator d) : SpatialQueryOp d β →
    SpatialHash d β × SpatialAccelerator d × Option β
  | get b =>
    let r := a.getBlock m b
    (m, r.2, r.1.bind m.getBlock)
  | alloc b dflt =>
    let r := a.getOrAllocateBlock m b dflt
    (r.1, r.2.2, r.2.1.bind r.1.getBlock)
  | reset => (m, .fresh, none)

/-- The same call made directly. -/
def runDirect (m : SpatialHash d β) : SpatialQueryOp d β → SpatialHash d β × Option β
  | get b => (m, m.getBlock b)
  | alloc b dflt => (m.getOrAllocateBlock b dflt, (m.getOrAllocateBlock b dflt).getBlock b)
  | reset => (m, none)

/-- The final hash and all results through the accelerator. -/
def allAccelerated : SpatialHash d β → SpatialAccelerator d → List (SpatialQueryOp d β) → SpatialHash d β × List (Option β)
  | m, _, [] => (m, [])
  | m, a, o :: ops =>
    let r := o.runAccelerated m a
    let rest := allAccelerated r.1 r.2.1 ops
    (rest.1, r.2.2 :: rest.2)

/-- The final hash and all results of direct calls. -/
def allDirect : SpatialHash d β → List (SpatialQueryOp d β) → SpatialHash d β × List (Option β)
  | m, [] => (m, [])
  | m, o :: ops =>
    let r := o.runDirect m
    let rest := allDirect r.1 ops
    (rest.1, r.2 :: rest.2)

end SpatialQueryOp

theorem SpatialHash.hasBlock_eq {d : Nat} {β : Type} (m : SpatialHash d β) (b : Index d) : m.hasBlock b = (m.getBlock b).isSome := rfl

/-- C25 for `SpatialHash`: looking up and allocating blocks through an accelerator gives the same results and leaves the same hash
as calling the hash itself, for every sequence of calls (made only through this accelerator). Blocks whose index is the
largest 32-bit integer in every coordinate are excluded. -/
theorem C25_spatial_hash {d : Nat} {β : Type} (m : SpatialHash d β) (ops : List (SpatialQueryOp d β))
    (hq : ∀ o ∈ ops, o.target ≠ some noBlockIndex) :
    SpatialQueryOp.allAccelerated m .fresh ops = SpatialQueryOp.allDirect m ops := by
  suffices ∀ (ops : List (SpatialQueryOp d β)) (m : SpatialHash d β) (a : SpatialAccelerator d),
      (a.lastBlockIndex = noBlockIndex ∨ a.lastBlock = if m.hasBlock a.lastBlockIndex then some a.lastBlockIndex else none) →
      (∀ o ∈ ops, o.target ≠ some noBlockIndex) → SpatialQueryOp.allAccelerated m a ops = SpatialQueryOp.allDirect m ops from
    this ops m _ (Or.inl rfl) hq
  intro ops
  induction ops with
  | nil => intros; rfl
  | cons o ops ih =>
    intro m a ha hq
    have hq' : ∀ o ∈ ops, o.target ≠ some noBlockIndex := fun o ho => hq o (List.mem_cons_of_mem _ ho)
    have ho := hq o (List.mem_cons_self ..)
    have step : (o.runAccelerated m a).1 = (o.runDirect m).1 ∧ (o.runAccelerated m a).2.2 = (o.runDirect m).2 ∧
        ((o.runAccelerated m a).2.1.lastBlockIndex = noBlockIndex ∨ (o.runAccelerated m a).2.1.lastBlock =
          if (o.runAccelerated m a).1.hasBlock (o.runAccelerated m a).2.1.lastBlockIndex then
            some (o.runAccelerated m a).2.1.lastBlockIndex else none) := by
      cases o with
      | reset => exact ⟨rfl, rfl, Or.inl rfl⟩
      | get b =>
        have hb : b ≠ noBlockIndex := fun h => ho (by rw [SpatialQueryOp.target, h])
        have key : a.getBlock m b = (if m.hasBlock b then some b else none, ⟨b, if m.hasBlock b then some b else none⟩) := by
          unfold SpatialAccelerator.getBlock
          by_cases h : b = a.lastBlockIndex
          · simp only [ne_eq, h, not_true_eq_false, if_false]
            rcases ha with h1 | h1
            · exact absurd (h.trans h1) hb
            · rw [← h1]
          · simp only [ne_eq, h, not_false_eq_true, if_true]
        simp only [SpatialQueryOp.runAccelerated, SpatialQueryOp.runDirect, key]
        refine ⟨trivial, ?_, Or.inr trivial⟩
        rw [SpatialHash.hasBlock_eq]
        cases hg : m.getBlock b <;> simp [hg]
      | alloc b dflt =>
        have hb : b ≠ noBlockIndex := fun h => ho (by rw [SpatialQueryOp.target, h])
        have hall : (m.getOrAllocateBlock b dflt).hasBlock b = true := by
          rw [SpatialHash.hasBlock_eq, SpatialHash.getBlock_getOrAllocate]; simp
        have key : a.getOrAllocateBlock m b dflt = (m.getOrAllocateBlock b dflt, some b, ⟨b, some b⟩) := by
          unfold SpatialAccelerator.getOrAllocateBlock
          by_cases h : b ≠ a.lastBlockIndex ∨ a.lastBlock = none
          · rw [if_pos h]
          · rw [if_neg h]
            push Not at h
            obtain ⟨h1, h2⟩ := h
            rcases ha with h3 | h3
            · exact absurd (h1.trans h3) hb
            · rw [← h1] at h3
              have hh : m.hasBlock b = true := by
                by_contra hc
                rw [if_neg hc] at h3; exact h2 h3
              rw [if_pos hh] at h3
              have e1 : m.getOrAllocateBlock b dflt = m := by
                rw [SpatialHash.hasBlock_eq] at hh
                unfold SpatialHash.getOrAllocateBlock
                obtain ⟨x, hx⟩ := Option.isSome_iff_exists.1 hh
                rw [hx]
              rw [e1, h3, h1]
              cases a; simp_all
        simp only [SpatialQueryOp.runAccelerated, SpatialQueryOp.runDirect, key]
        refine ⟨trivial, rfl, Or.inr ?_⟩
        rw [hall]; rfl
    obtain ⟨s1, s2, s3⟩ := step
    simp only [SpatialQueryOp.allAccelerated, SpatialQueryOp.allDirect]
    rw [← s1, ← s2, ih _ _ s3 hq']

/-- Lookups and allocations that alternate between two blocks. -/
example : let ops : List (SpatialQueryOp 2 Nat) := [.get ![1, 2], .alloc ![1, 2] 7, .get ![0, 0], .get ![1, 2], .reset, .alloc ![0, 0] 3, .get ![1, 2]]
    (∀ o ∈ ops, o.target ≠ some noBlockIndex) ∧
    SpatialQueryOp.allAccelerated ([] : SpatialHash 2 Nat) .fresh ops = SpatialQueryOp.allDirect [] ops := by
  intro ops
  have h : ∀ o ∈ ops, o.target ≠ some noBlockIndex := by decide
  exact ⟨h, C25_spatial_hash _ _ h⟩

end Wavemap
