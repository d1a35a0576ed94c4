import Verif.Lemmas.VoxelDisplay
import Verif.Props.Neighbors
/-!
# C73 The voxel display

Once its queue is empty, the voxel display of the RViz plugin shows exactly the selected nodes of the map: every allocated cell belongs to one node, no finer than the
level of detail of its block, and the nodes that the settings select are drawn once each, with their position, size and color.
-/
namespace Wavemap
open NdtreeIndex NTree Haar

/-! ## Specification -/

/-- What is drawn on the screen: a colored cube. -/
structure Cube where
  center : Point 3
  width : ℚ
  colour : Colour
deriving DecidableEq

/-- All cubes that are drawn. -/
def VoxelDisplay.shown (s : VoxelDisplay) : List Cube :=
  s.layers.flatMap fun e => e.2.flatMap fun layer => layer.cells.map fun c => ⟨c.center, layer.width, c.colour⟩

/-- The cube of a node with value `v` in a map whose cells have width `w`. -/
def nodeCube (w : ℚ) (colour : ColourMode) (n : NdtreeIndex 3) (v : ℚ) : Cube :=
  let center := fun i => ((n.position i : ℚ) + 1 / 2) * (2 ^ n.height.toNat * w)
  ⟨center, 2 ^ n.height.toNat * w, colour.pick center v⟩

/-- The settings select a node, given the values of all nodes: its value lies in the band, or it is occupied and one of the 26 nodes around it is free. -/
def CellSelector.Selects (sel : CellSelector) (value : NdtreeIndex 3 → ℚ) (n : NdtreeIndex 3) : Prop :=
  sel.unknown ≤ |value n| ∧
  match sel.mode with
  | .band => sel.bandMin ≤ value n ∧ value n ≤ sel.bandMax
  | .surface => sel.surface ≤ value n ∧ ∃ o : Index 3, (∀ i, |o i| ≤ 1) ∧ (∃ i, o i ≠ 0) ∧
      sel.unknown ≤ |value ⟨n.height, fun i => n.position i + o i⟩| ∧ value ⟨n.height, fun i => n.position i + o i⟩ < sel.surface

/-- The nodes divide the allocated part of the map among them. In the block with index `k` they are of height `lod k`, except that larger nodes stand for cells
that all have the same value. -/
structure LodCover (m : HashedWaveletOctree) (lod : Index 3 → Int) (nodes : List (NdtreeIndex 3)) : Prop where
  inside : ∀ k j, (m.blocks.getBlock k).isSome = true → InBlock m.config.treeHeight k j →
    ∃ n, nodes.filter (fun n => decide (NodeRegion n j)) = [n] ∧ lod k ≤ n.height ∧ n.height < m.config.treeHeight ∧
      (n.height = lod k ∨ ∀ i, NodeRegion n i → m.getCellValue i = m.getNodeValue n)
  outside : ∀ j, ¬ m.Allocated j → nodes.filter (fun n => decide (NodeRegion n j)) = []

/-! ## Selection -/

theorem disjoint_iff (o : Index 3) : SharesContact o .anyDisjoint ↔ (∀ i, |o i| ≤ 1) ∧ ∃ i, o i ≠ 0 := by
  unfold SharesContact ContactDim
  have hmeet : (∀ i, max 0 (o i) ≤ min 1 (o i + 1)) ↔ ∀ i, |o i| ≤ 1 := by
    refine forall_congr' fun i => ?_
    rw [abs_le]; omega
  rw [← hmeet]
  constructor
  · rintro ⟨⟨k, h1, h2⟩, h3⟩
    refine ⟨h1, ?_⟩
    by_contra hno
    simp only [not_exists, not_not] at hno
    apply h3
    refine ⟨h1, ?_⟩
    rw [Finset.filter_true_of_mem fun i _ => by rw [hno i]; decide]
    rfl
  · rintro ⟨h1, i, hi⟩
    refine ⟨⟨_, h1, rfl⟩, ?_⟩
    rintro ⟨_, h2⟩
    have hall := Finset.filter_card_eq (s := (Finset.univ : Finset (Fin 3))) (p := fun i => max 0 (o i) < min 1 (o i + 1)) (by rw [h2]; rfl)
    have := hall i (Finset.mem_univ i)
    omega

theorem anyFree_spec (sel : CellSelector) (value : NdtreeIndex 3 → ℚ) (n : NdtreeIndex 3) (os : List (Index 3)) :
    sel.anyFree (fun n => some (value n)) n os =
      some (os.any fun o => decide (value ⟨n.height, fun i => n.position i + o i⟩ < sel.surface) && !sel.isUnknown (value ⟨n.height, fun i => n.position i + o i⟩)) := by
  induction os with
  | nil => rfl
  | cons o os ih =>
    simp only [CellSelector.anyFree, List.any_cons]
    split
    · next h => rw [h]; rfl
    · next h => rw [ih]; simp only [Bool.not_eq_true] at h; rw [h]; rfl

/-- With an accelerator that refers to the map, the code selects what the settings say. -/
theorem draws_iff {s : VoxelDisplay} {m : HashedWaveletOctree} (hm : s.map = some (.hashedWavelet m)) (hacc : s.selector.accelerator = some s.version)
    (n : NdtreeIndex 3) : ∃ b, s.draws n (m.getNodeValue n) = some b ∧ (b = true ↔ s.selector.Selects m.getNodeValue n) := by
  have hval : s.nodeValue = fun n => some (m.getNodeValue n) := by
    funext n
    unfold VoxelDisplay.nodeValue
    rw [hm]
    simp only [hacc, if_pos]
  unfold VoxelDisplay.draws CellSelector.shouldBeDrawn CellSelector.Selects
  rw [hval]
  cases hmode : s.selector.mode with
  | band =>
    refine ⟨_, rfl, ?_⟩
    simp only [CellSelector.isUnknown, Bool.not_eq_true', Bool.or_eq_false_iff, decide_eq_false_iff_not, not_lt]
    tauto
  | surface =>
    simp only
    by_cases h1 : (decide (m.getNodeValue n < s.selector.surface) || s.selector.isUnknown (m.getNodeValue n)) = true
    · rw [if_pos h1]
      refine ⟨_, rfl, ?_⟩
      simp only [CellSelector.isUnknown, Bool.or_eq_true, decide_eq_true_eq] at h1
      simp only [Bool.false_eq_true, false_iff]
      rintro ⟨h2, h3, _⟩
      rcases h1 with h1 | h1 <;> linarith
    · rw [if_neg h1]
      simp only [CellSelector.isUnknown, Bool.or_eq_true, decide_eq_true_eq, not_or, not_lt] at h1
      obtain ⟨L, hL, hmem, _⟩ := C48_offsets (d := 3) (by decide) .anyDisjoint
      unfold CellSelector.hasFreeNeighbor
      rw [hL]
      simp only [anyFree_spec]
      refine ⟨_, rfl, ?_⟩
      rw [List.any_eq_true]
      simp only [CellSelector.isUnknown, Bool.and_eq_true, decide_eq_true_eq, Bool.not_eq_true', decide_eq_false_iff_not, not_lt]
      constructor
      · rintro ⟨o, ho, h2, h3⟩
        obtain ⟨g1, g2⟩ := (disjoint_iff o).1 ((hmem o).1 ho)
        exact ⟨h1.2, h1.1, o, g1, g2, h3, h2⟩
      · rintro ⟨_, _, o, g1, g2, h3, h2⟩
        exact ⟨o, (hmem o).2 ((disjoint_iff o).2 ⟨g1, g2⟩), h2, h3⟩

/-! ## The nodes of a block -/

/-- The leaves of a block that is drawn at height `h`. -/
theorem blockLeaves_spec {m : HashedWaveletOctree} (hs : m.Sound) {k : Index 3} {b : WaveletBlock} (hk : m.blocks.getBlock k = some b) {h : Int}
    (hH : h < m.config.treeHeight) {e : NdtreeIndex 3 × ℚ}
    (he : e ∈ b.root.leaves (fun x => decide (h < x)) ⟨m.config.treeHeight, k⟩ b.rootScale) {i : Index 3} (hi : NodeRegion e.1 i) :
    InBlock m.config.treeHeight k i ∧ 0 ≤ e.1.height ∧ h ≤ e.1.height ∧ e.1.height < m.config.treeHeight ∧ e.2 = m.getNodeValue e.1 ∧
      (b.root.leaves (fun x => decide (h < x)) ⟨m.config.treeHeight, k⟩ b.rootScale).filter (fun e => decide (NodeRegion e.1 i)) = [e] ∧
      (e.1.height = h ∨ m.getCellValue i = e.2) ∧ ∃ q, e.2 = b.root.getValue b.rootScale q := by
  have hf := hs.fits k b hk
  obtain ⟨h1, h2⟩ := WTree.leaves_filter (fun x => decide (h < x)) m.config.treeHeight b.root hf.root hf.depth ⟨m.config.treeHeight, k⟩ rfl b.rootScale i
  have hmem : e ∈ (b.root.leaves (fun x => decide (h < x)) ⟨m.config.treeHeight, k⟩ b.rootScale).filter (fun e => decide (NodeRegion e.1 i)) :=
    List.mem_filter.2 ⟨he, by simpa using hi⟩
  by_cases hin : NodeRegion (⟨m.config.treeHeight, k⟩ : NdtreeIndex 3) i
  · obtain ⟨n, g0, g1, g2, g3, g4, g5⟩ := h1 hin
    have hblk : indexToBlockIndex m.config.treeHeight i = k := (inBlock_iff _ _).1 ((HashedWaveletOctree.region_block _ _ _).1 hin)
    rw [g3, List.mem_singleton] at hmem
    have hanc : indexAndHeightToNodeIndex i n.height.toNat = n := (C03_region_iff_ancestor n g0 i).1 g2
    have hval := hs.node_value' 0 i n.height.toNat (by omega)
    rw [hblk, hk, hanc] at hval
    have hle : h ≤ n.height := by
      by_cases hlt : n.height + 1 < m.config.treeHeight
      · have := g5 (n.height + 1) (by omega) hlt
        simp only [decide_eq_true_eq] at this
        omega
      · omega
    have hee : e = (n, WTree.getValue b.root b.rootScale ((cellPath m.config.treeHeight i).take (m.config.treeHeight - n.height.toNat))) := hmem
    rw [hee]
    refine ⟨(HashedWaveletOctree.region_block _ _ _).1 hin, g0, hle, g1, hval.symm, g3, ?_, _, rfl⟩
    by_cases hnh : n.height = h
    · exact .inl hnh
    · right
      have hlt : h < n.height := by omega
      rcases g4 with g4 | g4
      · rw [hs.getCellValue_eq, hblk, hk]
        show b.val i = _
        unfold WaveletBlock.val
        rw [hf.height]
        exact (WTree.getValue_take _ _ _ _ g4).symm
      · simp only [decide_eq_false_iff_not] at g4
        exact absurd hlt g4
  · rw [h2 hin] at hmem
    cases hmem

theorem region_min (n : NdtreeIndex 3) : NodeRegion n fun i => n.position i * 2 ^ n.height.toNat := by
  intro i
  have := two_pow_pos' n.height.toNat
  constructor
  · exact le_refl _
  · dsimp only; rw [Int.add_mul]; omega

/-! ## The cubes of a block -/

theorem flatMap_levels_perm {α β : Type} (p : α → Bool) (f : α → Int) (g : Nat → α → β) (l : List α) : ∀ N : Nat,
    ((List.range N).flatMap fun d : Nat => (l.filter fun e => p e && decide (f e = d)).map (g d)).Perm
      ((l.filter fun e => p e && decide (0 ≤ f e ∧ f e < N)).map fun e => g (f e).toNat e) := by
  intro N
  induction N with
  | zero =>
    have : (l.filter fun e => p e && decide (0 ≤ f e ∧ f e < ((0 : Nat) : Int))) = [] := by
      rw [List.filter_eq_nil_iff]
      intro e _
      simp only [Bool.and_eq_true, decide_eq_true_eq, not_and]
      omega
    rw [this]; exact List.Perm.refl _
  | succ N ih =>
    rw [List.range_succ, List.flatMap_append]
    simp only [List.flatMap_cons, List.flatMap_nil, List.append_nil]
    refine (ih.append_right _).trans ?_
    have hmap : (l.filter fun e => p e && decide (f e = N)).map (g N) = (l.filter fun e => p e && decide (f e = N)).map fun e => g (f e).toNat e := by
      apply List.map_congr_left
      intro e he
      have := (List.mem_filter.1 he).2
      simp only [Bool.and_eq_true, decide_eq_true_eq] at this
      rw [this.2]; rfl
    rw [hmap, ← List.map_append]
    apply List.Perm.map
    have h1 : (l.filter fun e => p e && decide (0 ≤ f e ∧ f e < N)) =
        (l.filter fun e => p e && decide (0 ≤ f e ∧ f e < ((N + 1 : Nat) : Int))).filter fun e => !decide (f e = N) := by
      rw [List.filter_filter]
      apply List.filter_congr
      intro e _
      rw [Bool.eq_iff_iff]
      simp only [Bool.and_eq_true, decide_eq_true_eq, Bool.not_eq_true', decide_eq_false_iff_not]
      constructor
      · rintro ⟨a, b⟩; exact ⟨by omega, a, by omega⟩
      · rintro ⟨a, b, c⟩; exact ⟨b, by omega⟩
    have h2 : (l.filter fun e => p e && decide (f e = N)) =
        (l.filter fun e => p e && decide (0 ≤ f e ∧ f e < ((N + 1 : Nat) : Int))).filter fun e => decide (f e = N) := by
      rw [List.filter_filter]
      apply List.filter_congr
      intro e _
      rw [Bool.eq_iff_iff]
      simp only [Bool.and_eq_true, decide_eq_true_eq]
      constructor
      · rintro ⟨a, b⟩; exact ⟨b, a, by omega⟩
      · rintro ⟨a, b, c⟩; exact ⟨b, a⟩
    rw [h1, h2]
    refine List.perm_append_comm.trans ?_
    exact List.filter_append_perm _ _

theorem center_eq (w : ℚ) (n : NdtreeIndex 3) :
    nodeIndexToCenterPoint n w = fun i => ((n.position i : ℚ) + 1 / 2) * (2 ^ n.height.toNat * w) := by
  funext i
  simp only [nodeIndexToCenterPoint, indexToCenterPoint, heightToCellWidth, exp2_eq]
  push_cast
  ring

theorem picture_shown {draw : NdtreeIndex 3 → ℚ → Option Bool} {colour : ColourMode} {H : Nat} {w : ℚ} {leaves : List (NdtreeIndex 3 × ℚ)} {h : Int}
    (hin : ∀ e ∈ leaves, draw e.1 e.2 = some true → h ≤ e.1.height ∧ e.1.height ≤ H) :
    ((picture draw colour H w leaves h).flatMap fun layer => layer.cells.map fun c => (⟨c.center, layer.width, c.colour⟩ : Cube)).Perm
      ((leaves.filter fun e => decide (draw e.1 e.2 = some true)).map fun e => nodeCube w colour e.1 e.2) := by
  unfold picture
  rw [List.flatMap_map]
  have hfun : (fun d : Nat => (layerCells draw colour H w leaves d).map fun c => (⟨c.center, heightToCellWidth w ((H : Int) - d).toNat, c.colour⟩ : Cube)) =
      fun d : Nat => (leaves.filter fun e => decide (draw e.1 e.2 = some true) && decide ((H : Int) - e.1.height = d)).map
        ((fun (d : Nat) (e : NdtreeIndex 3 × ℚ) => (⟨nodeIndexToCenterPoint e.1 w, heightToCellWidth w ((H : Int) - d).toNat,
          colour.pick (nodeIndexToCenterPoint e.1 w) e.2⟩ : Cube)) d) := by
    funext d
    unfold layerCells
    rw [List.map_map]
    rfl
  rw [hfun]
  refine (flatMap_levels_perm _ _ _ _ _).trans ?_
  have hfil : (leaves.filter fun e => decide (draw e.1 e.2 = some true) &&
      decide (0 ≤ (H : Int) - e.1.height ∧ (H : Int) - e.1.height < (((H : Int) + 1 - h).toNat : Nat))) =
      leaves.filter fun e => decide (draw e.1 e.2 = some true) := by
    apply List.filter_congr
    intro e he
    by_cases hd : draw e.1 e.2 = some true
    · have := hin e he hd
      rw [decide_eq_true hd, Bool.true_and, decide_eq_true_eq]
      omega
    · rw [decide_eq_false hd, Bool.false_and]
  rw [hfil]
  refine List.Perm.of_eq (List.map_congr_left fun e he => ?_)
  obtain ⟨he1, he2⟩ := List.mem_filter.1 he
  have := hin e he1 (by simpa using he2)
  unfold nodeCube
  rw [← center_eq]
  have e1 : ((H : Int) - (((H : Int) - e.1.height).toNat : Nat)).toNat = e.1.height.toNat := by omega
  simp only [e1]
  congr 1
  unfold heightToCellWidth
  rw [exp2_eq]; push_cast; ring

theorem WTree.leaves_congr {f g : Int → Bool} (t : WTree) : ∀ (n : NdtreeIndex 3) (s : ℚ), (∀ x, x < n.height → f x = g x) →
    t.leaves f n s = t.leaves g n s := by
  induction t with
  | nil => intro n s _; rfl
  | leaf a => intro n s _; rfl
  | node a ch ih =>
    intro n s h
    simp only [WTree.leaves]
    rw [h (n.height - 1) (by omega)]
    congr 1
    congr 1
    funext c
    split
    · exact ih c _ _ fun x hx => h x (by simp only [computeChildIndex] at hx; omega)
    · rfl

theorem WaveletBlock.empty_getValue {b : WaveletBlock} (hr : b.root ≠ .nil) (he : b.empty = true) (q : List (Fin (2 ^ 3))) :
    |b.root.getValue b.rootScale q| < 1 / 1000 := by
  unfold WaveletBlock.empty WTree.nodeEmpty at he
  simp only [Bool.and_eq_true, Bool.not_eq_true'] at he
  obtain ⟨⟨hc, hz⟩, hu⟩ := he
  have hd : WTree.details b.root = fun _ => 0 := by
    funext i
    unfold WTree.anyNonzero at hz
    rw [List.any_eq_false] at hz
    have := hz i (List.mem_finRange i)
    simpa using this
  have hu' : |b.rootScale| < 1 / 1000 := by simpa [isUnobserved] using hu
  cases q with
  | nil => rw [WTree.getValue_nil_path]; exact hu'
  | cons c q =>
    rw [WTree.getValue_cons _ hr, hd, bwd_single_const]
    have : b.root.child c = .nil := by
      cases hh : b.root with
      | nil => rfl
      | leaf a => rfl
      | node a ch => rw [hh] at hc; cases hc
    rw [this, WTree.getValue_nil]
    exact hu'

theorem SpatialHash.filter_flatMap {β γ : Type} (f : Index 3 × β → List γ) (p : γ → Bool) (k : Index 3) (b : β) :
    ∀ (bm : SpatialHash 3 β), bm.keys.Nodup → bm.getBlock k = some b → (∀ e ∈ bm, e.1 ≠ k → (f e).filter p = []) →
      (bm.flatMap f).filter p = (f (k, b)).filter p := by
  intro bm
  induction bm with
  | nil => intro _ hk; cases hk
  | cons e bm ih =>
    intro hn hk hout
    rw [List.flatMap_cons, List.filter_append]
    simp only [SpatialHash.keys, List.map_cons, List.nodup_cons] at hn
    obtain ⟨k', b'⟩ := e
    simp only [SpatialHash.getBlock] at hk
    by_cases hkk : k' = k
    · rw [if_pos hkk] at hk
      cases hk
      subst hkk
      have : (bm.flatMap f).filter p = [] := by
        rw [List.filter_flatMap, List.flatMap_eq_nil_iff]
        intro e he
        refine hout e (List.mem_cons_of_mem _ he) fun hx => hn.1 (List.mem_map.2 ⟨e, he, hx⟩)
      rw [this, List.append_nil]
    · rw [if_neg hkk] at hk
      rw [hout _ List.mem_cons_self hkk, List.nil_append]
      exact ih hn.2 hk fun e he => hout e (List.mem_cons_of_mem _ he)

theorem SpatialHash.perm_of_getBlock {β : Type} {a b : SpatialHash 3 β} (ha : a.keys.Nodup) (hb : b.keys.Nodup) (h : ∀ k, a.getBlock k = b.getBlock k) :
    a.Perm b := by
  rw [List.perm_ext_iff_of_nodup (List.Nodup.of_map _ ha) (List.Nodup.of_map _ hb)]
  rintro ⟨k, x⟩
  constructor
  · intro hm
    exact SpatialHash.mem_of_getBlock (by rw [← h]; exact SpatialHash.getBlock_of_mem ha hm)
  · intro hm
    exact SpatialHash.mem_of_getBlock (by rw [h]; exact SpatialHash.getBlock_of_mem hb hm)

open Classical in
/-- A display whose queue is empty shows the selected nodes. -/
theorem shown_spec {H : Nat} {w : ℚ} {s : VoxelDisplay} {m : HashedWaveletOctree} (hm : s.map = some (.hashedWavelet m))
    (hacc : s.selector.accelerator = some s.version) (hb : s.Base H w) (hq : s.queue = []) (hf : s.Fresh m) (hs : m.Sound)
    (hobs : ∀ n, s.selector.Selects m.getNodeValue n → 1 / 1000 ≤ |m.getNodeValue n|) :
    ∃ (lod : Index 3 → Int) (nodes : List (NdtreeIndex 3)), LodCover m lod nodes ∧
      (∀ k, (m.blocks.getBlock k).isSome = true → 0 ≤ lod k ∧ ∃ h, s.currentHeight m.config.treeHeight k = some h ∧
        lod k = min h ((m.config.treeHeight : Int) - 1)) ∧
      s.shown.Perm ((nodes.filter fun n => decide (s.selector.Selects m.getNodeValue n)).map
        fun n => nodeCube m.config.minCellWidth s.colour n (m.getNodeValue n)) := by
  have hpos := hs.pos
  have hdrawn : ∀ k, ∃ h, ∀ b, m.blocks.getBlock k = some b → s.Drawn m k b h := by
    intro k
    cases hk : m.blocks.getBlock k with
    | none => exact ⟨0, fun b hb => by cases hb⟩
    | some b =>
      rcases hf k b hk with h | h | ⟨x, h⟩
      · rw [hq] at h; cases h
      · exact absurd hacc h.2
      · exact ⟨x, fun b' hb' => by cases hb'; exact h⟩
  choose ht hdr using hdrawn
  let lod : Index 3 → Int := fun k => min (ht k) ((m.config.treeHeight : Int) - 1)
  have hlod : ∀ k, lod k < m.config.treeHeight := fun k => by show min _ _ < _; omega
  let leavesOf : Index 3 × WaveletBlock → List (NdtreeIndex 3 × ℚ) := fun e =>
    e.2.root.leaves (fun x => decide (lod e.1 < x)) ⟨m.config.treeHeight, e.1⟩ e.2.rootScale
  have hmem : ∀ e ∈ m.blocks, m.blocks.getBlock e.1 = some e.2 := fun e he => SpatialHash.getBlock_of_mem hs.nodup he
  refine ⟨lod, m.blocks.flatMap fun e => (leavesOf e).map Prod.fst, ⟨?_, ?_⟩, ?_, ?_⟩
  · -- the nodes cover the blocks
    intro k j hk hj
    obtain ⟨b, hkb⟩ := Option.isSome_iff_exists.1 hk
    have hf := hs.fits k b hkb
    obtain ⟨n, g0, g1, g2, g3, _⟩ := (WTree.leaves_filter (fun x => decide (lod k < x)) m.config.treeHeight b.root hf.root hf.depth
      ⟨m.config.treeHeight, k⟩ rfl b.rootScale j).1 ((HashedWaveletOctree.region_block _ _ _).2 hj)
    have hmemn : (n, b.root.getValue b.rootScale ((cellPath m.config.treeHeight j).take (m.config.treeHeight - n.height.toNat))) ∈ leavesOf (k, b) := by
      have hx := List.mem_singleton_self (n, b.root.getValue b.rootScale ((cellPath m.config.treeHeight j).take (m.config.treeHeight - n.height.toNat)))
      rw [← g3] at hx
      exact (List.mem_filter.1 hx).1
    obtain ⟨_, _, c3, c4, c5, c6, _⟩ := blockLeaves_spec hs hkb (hlod k) hmemn g2
    refine ⟨n, ?_, c3, c4, ?_⟩
    · rw [SpatialHash.filter_flatMap _ _ k b m.blocks hs.nodup hkb, List.filter_map]
      · show ((leavesOf (k, b)).filter fun e => decide (NodeRegion e.1 j)).map Prod.fst = [n]
        rw [c6]; rfl
      · intro e he hne
        rw [List.filter_map, List.map_eq_nil_iff, List.filter_eq_nil_iff]
        intro x hx hr
        have hr : NodeRegion x.1 j := by simpa using hr
        obtain ⟨hin, _⟩ := blockLeaves_spec hs (hmem e he) (hlod e.1) hx hr
        rw [inBlock_iff] at hin hj
        exact hne (hin.symm.trans hj)
    · by_cases hnh : n.height = lod k
      · exact .inl hnh
      · right
        intro i hi
        obtain ⟨_, _, _, _, d5, _, d7, _⟩ := blockLeaves_spec hs hkb (hlod k) hmemn hi
        rcases d7 with d7 | d7
        · exact absurd d7 hnh
        · rw [d7]; exact d5
  · -- and nothing else
    intro j hj
    rw [List.filter_flatMap, List.flatMap_eq_nil_iff]
    intro e he
    rw [List.filter_map, List.map_eq_nil_iff, List.filter_eq_nil_iff]
    intro x hx hr
    have hr : NodeRegion x.1 j := by simpa using hr
    obtain ⟨hin, _⟩ := blockLeaves_spec hs (hmem e he) (hlod e.1) hx hr
    exact hj ⟨e.1, hin, by rw [hmem e he]; rfl⟩
  · intro k hk
    obtain ⟨b, hkb⟩ := Option.isSome_iff_exists.1 hk
    have := hdr k b hkb
    refine ⟨?_, ht k, this.currentHeight, rfl⟩
    have := this.1
    show 0 ≤ min _ _
    omega
  · -- the cubes
    have hlay : s.layers.Perm (m.blocks.map fun e =>
        (e.1, picture s.draws s.colour m.config.treeHeight m.config.minCellWidth (e.2.forEachLeaf e.1 (ht e.1)) (ht e.1))) := by
      apply SpatialHash.perm_of_getBlock hb.layerKeys
      · unfold SpatialHash.keys
        rw [List.map_map]
        exact hs.nodup
      · intro k
        have hmapget : ∀ (f : Index 3 → WaveletBlock → List CellLayer), SpatialHash.getBlock (m.blocks.map fun e => (e.1, f e.1 e.2)) k =
            (m.blocks.getBlock k).map (f k) := by
          intro f
          generalize m.blocks = bm
          induction bm with
          | nil => rfl
          | cons e bm ih =>
            obtain ⟨k', b'⟩ := e
            simp only [List.map_cons, SpatialHash.getBlock]
            by_cases hkk : k' = k
            · subst hkk; simp
            · rw [if_neg hkk, if_neg hkk, ih]
        rw [hmapget fun k b => picture s.draws s.colour m.config.treeHeight m.config.minCellWidth (b.forEachLeaf k (ht k)) (ht k)]
        cases hk : m.blocks.getBlock k with
        | some b => rw [(hdr k b hk).2.2.1]; rfl
        | none =>
          cases hl : s.layers.getBlock k with
          | none => rfl
          | some ls =>
            have := (hb.synced m hm hacc).1 k (by unfold SpatialHash.hasBlock; rw [hl]; rfl)
            unfold SpatialHash.hasBlock at this
            rw [hk] at this; cases this
    unfold VoxelDisplay.shown
    refine (hlay.flatMap_right _).trans ?_
    rw [List.flatMap_map, List.filter_flatMap, List.map_flatMap]
    refine List.Perm.flatMap_left _ fun e he => ?_
    have hkb := hmem e he
    obtain ⟨p0, p1, p2, p3⟩ := hdr e.1 e.2 hkb
    refine (picture_shown p3).trans (List.Perm.of_eq ?_)
    have hfit := hs.fits e.1 e.2 hkb
    have hsel : ∀ x ∈ leavesOf e, (s.draws x.1 x.2 = some true ↔ s.selector.Selects m.getNodeValue x.1) := by
      intro x hx
      obtain ⟨_, _, _, _, c5, _⟩ := blockLeaves_spec hs hkb (hlod e.1) hx (region_min x.1)
      obtain ⟨b, d1, d2⟩ := draws_iff hm hacc x.1
      rw [c5, d1, Option.some.injEq]
      exact d2
    have hright : ((((leavesOf e).map Prod.fst).filter fun n => decide (s.selector.Selects m.getNodeValue n)).map
        fun n => nodeCube m.config.minCellWidth s.colour n (m.getNodeValue n)) =
        ((leavesOf e).filter fun x => decide (s.draws x.1 x.2 = some true)).map fun x => nodeCube m.config.minCellWidth s.colour x.1 x.2 := by
      rw [List.filter_map, List.map_map]
      have : (leavesOf e).filter ((fun n => decide (s.selector.Selects m.getNodeValue n)) ∘ Prod.fst) =
          (leavesOf e).filter fun x => decide (s.draws x.1 x.2 = some true) := by
        apply List.filter_congr
        intro x hx
        rw [Bool.eq_iff_iff]
        simp only [Function.comp_apply, decide_eq_true_eq]
        exact (hsel x hx).symm
      rw [this]
      apply List.map_congr_left
      intro x hx
      obtain ⟨_, _, _, _, c5, _⟩ := blockLeaves_spec hs hkb (hlod e.1) (List.mem_filter.1 hx).1 (region_min x.1)
      simp only [Function.comp_apply]
      rw [c5]
    rw [hright]
    unfold WaveletBlock.forEachLeaf
    by_cases hem : e.2.empty = true
    · rw [if_pos hem, List.filter_nil, List.map_nil]
      symm
      rw [List.map_eq_nil_iff, List.filter_eq_nil_iff]
      intro x hx hd
      have hd := (hsel x hx).1 (by simpa using hd)
      obtain ⟨_, _, _, _, c5, _, _, q, c8⟩ := blockLeaves_spec hs hkb (hlod e.1) hx (region_min x.1)
      have h1 := hobs x.1 hd
      have h2 := WaveletBlock.empty_getValue hfit.root hem q
      rw [← c8, c5] at h2
      linarith
    · rw [if_neg hem, hfit.height]
      have : e.2.root.leaves (fun x => decide (ht e.1 < x)) ⟨m.config.treeHeight, e.1⟩ e.2.rootScale = leavesOf e := by
        apply WTree.leaves_congr
        intro x hx
        have hx : x < m.config.treeHeight := hx
        show decide _ = decide (min _ _ < x)
        congr 1
        rw [eq_iff_iff]
        omega
      rw [this]

end Wavemap
