import Verif.Props.VoxelDisplayRuns
import Verif.Props.MapMsg
/-!
# C73 The voxel display: examples, and histories after which it does not show the map
-/
namespace Wavemap
open NdtreeIndex NTree Haar VoxelDisplay

/-! ## Checks that the kernel can evaluate -/

/-- `WTree.DepthLe`, as a function. -/
def WTree.depthCheck : Nat → WTree → Bool
  | 0, .nil => true
  | 0, _ => false
  | h + 1, t => (List.finRange (2 ^ 3)).all fun c => depthCheck h (t.child c)

theorem WTree.depthCheck_spec : ∀ (h : Nat) (t : WTree), depthCheck h t = true → WTree.DepthLe h t := by
  intro h
  induction h with
  | zero =>
    intro t ht
    cases t with
    | nil => rfl
    | leaf a => cases ht
    | node a ch => cases ht
  | succ h ih =>
    intro t ht c
    simp only [depthCheck, List.all_eq_true] at ht
    exact ih _ (ht c (List.mem_finRange c))

/-- `HashedWaveletOctree.Sound`, as a function. -/
def HashedWaveletOctree.soundCheck (m : HashedWaveletOctree) : Bool :=
  decide (0 < m.config.minCellWidth) && decide (0 < m.config.treeHeight) && decide (m.config.treeHeight ≤ 20) &&
  decide (m.config.minLogOdds < m.config.maxLogOdds) && decide m.blocks.keys.Nodup &&
  m.blocks.all fun e => decide (e.2.treeHeight = m.config.treeHeight) && decide (e.2.minLogOdds = m.config.minLogOdds) &&
    decide (e.2.maxLogOdds = m.config.maxLogOdds) && (match e.2.root with | .nil => false | _ => true) && WTree.depthCheck m.config.treeHeight e.2.root

theorem HashedWaveletOctree.soundCheck_spec {m : HashedWaveletOctree} (h : m.soundCheck = true) : m.Sound := by
  simp only [soundCheck, Bool.and_eq_true, decide_eq_true_eq, List.all_eq_true] at h
  obtain ⟨⟨⟨⟨⟨h1, h2⟩, h3⟩, h4⟩, h5⟩, h6⟩ := h
  refine ⟨h1, h2, h3, h4, h5, fun k b hk => ?_⟩
  obtain ⟨⟨⟨⟨g1, g2⟩, g3⟩, g4⟩, g5⟩ := h6 _ (SpatialHash.mem_of_getBlock hk)
  refine ⟨g1, g2, g3, fun e => ?_, WTree.depthCheck_spec _ _ g5⟩
  dsimp only at g4
  rw [e] at g4
  cases g4

/-- All blocks have the same value everywhere, and the value fulfils `p`. -/
def HashedWaveletOctree.flatCheck (p : ℚ → Bool) (m : HashedWaveletOctree) : Bool :=
  p 0 && m.blocks.all fun e => (match e.2.root with | .leaf a => (List.finRange (2 ^ 3 - 1)).all fun i => decide (a i = 0) | _ => false) && p e.2.rootScale

theorem HashedWaveletOctree.flatCheck_spec {p : ℚ → Bool} {m : HashedWaveletOctree} (h : m.flatCheck p = true) (n : NdtreeIndex 3) :
    p (m.getNodeValue n) = true := by
  simp only [flatCheck, Bool.and_eq_true, List.all_eq_true] at h
  obtain ⟨h0, h⟩ := h
  unfold HashedWaveletOctree.getNodeValue
  cases hk : m.blocks.getBlock (m.nodeToBlockIndex n) with
  | none => exact h0
  | some b =>
    obtain ⟨g1, g2⟩ := h _ (SpatialHash.mem_of_getBlock hk)
    dsimp only at g1 g2 ⊢
    have : b.getCellValue (m.nodeToCellIndex n) = b.rootScale := by
      unfold WaveletBlock.getCellValue
      cases hr : b.root with
      | nil => rw [hr] at g1; cases g1
      | node a ch => rw [hr] at g1; cases g1
      | leaf a =>
        rw [hr] at g1
        simp only [List.all_eq_true, decide_eq_true_eq] at g1
        have ha : a = fun _ => 0 := by
          funext i; exact g1 i (List.mem_finRange i)
        generalize nodePath b.treeHeight (m.nodeToCellIndex n) = q
        cases q with
        | nil => rw [WTree.getValue_nil_path]
        | cons c q =>
          rw [WTree.getValue_cons _ (by simp)]
          have hd : WTree.details (.leaf a) = fun _ => 0 := ha
          rw [hd, bwd_single_const]
          exact WTree.getValue_nil _ _
    rw [this]
    exact g2

/-- A check of the map, if it is a hashed wavelet octree. -/
def VoxelDisplay.onMap (p : HashedWaveletOctree → Bool) (s : VoxelDisplay) : Bool :=
  match s.map with
  | some (.hashedWavelet m) => p m
  | _ => false

theorem VoxelDisplay.onMap_spec {p : HashedWaveletOctree → Bool} {s : VoxelDisplay} (h : s.onMap p = true) :
    ∃ m, s.map = some (.hashedWavelet m) ∧ p m = true := by
  unfold VoxelDisplay.onMap at h
  split at h
  · next m e => exact ⟨m, e, h⟩
  · cases h

/-- Which kind of outcome. -/
def Outcome.kind {α : Type} : Outcome α → Nat
  | .done _ => 0
  | .abort => 1
  | .undefined => 2

theorem Outcome.abort_of {α : Type} {o : Outcome α} (h : o.kind = 1) : o = .abort := by cases o <;> first | rfl | cases h
theorem Outcome.undefined_of {α : Type} {o : Outcome α} (h : o.kind = 2) : o = .undefined := by cases o <;> first | rfl | cases h

/-! ## Examples -/

/-- A message of a map whose blocks have the same value everywhere. -/
def flatMsg (w : ℚ) (H : Int) (allocated : List (Index 3)) (blocks : List (Index 3 × ℚ)) : MapMsg :=
  ⟨[], [], [⟨w, -2, 4, H, allocated, blocks.map fun e => ⟨e.1, e.2, [⟨fun _ => 0, 0⟩]⟩⟩]⟩

/-- A frame seen from the origin. -/
def originFrame (orthographic moved : Bool) : Event := .frame ⟨orthographic, fun _ => 0⟩ moved id 10

/-- Two adjacent blocks: one occupied, the other one free. -/
def wallMsg : MapMsg := flatMsg 1 1 [fun _ => 0, ![1, 0, 0]] [(fun _ => 0, 1), (![1, 0, 0], -1)]

theorem frame_sorts (a b : Bool) : (originFrame a b).sorts := fun _ => List.Perm.refl _

/-- Whether all maps during a history have the same resolution, as a function. -/
def VoxelDisplay.resolutionCheck (H : Nat) (w : ℚ) : List Event → VoxelDisplay → Bool
  | es, s =>
    (match s.map with
      | some m => decide (m.treeHeight = H) && decide (m.minCellWidth = w)
      | none => true) &&
    match es with
    | [] => true
    | e :: es =>
      match s.step e with
      | .done s' => resolutionCheck H w es s'
      | _ => true

theorem VoxelDisplay.resolutionCheck_spec {H : Nat} {w : ℚ} : ∀ {es : List Event} {s : VoxelDisplay}, resolutionCheck H w es s = true → OneResolution H w es s := by
  intro es
  induction es with
  | nil =>
    intro s h p hp s' hr m hm
    rw [List.prefix_nil] at hp
    subst hp
    cases hr
    simp only [resolutionCheck, hm, Bool.and_true, Bool.and_eq_true, decide_eq_true_eq] at h
    exact h
  | cons e es ih =>
    intro s h p hp s' hr
    rw [resolutionCheck, Bool.and_eq_true] at h
    cases p with
    | nil =>
      cases hr
      intro m hm
      have := h.1
      simp only [hm, Bool.and_eq_true, decide_eq_true_eq] at this
      exact this
    | cons e' p =>
      obtain ⟨rfl, hp'⟩ := List.cons_prefix_cons.1 hp
      obtain ⟨s1, h1, h2⟩ := run_cons hr
      have := h.2
      simp only [h1] at this
      exact ih this p hp' s' h2

example : -- a history as in `C73_band_partial` and `C73_finishes`, after which 8 cubes are shown
    ∃ s m, run [.message wallMsg 1 true, .setMode .band 2, originFrame true true, originFrame true false, originFrame true false] {} = .done s ∧
      OneResolution 1 1 [.message wallMsg 1 true, .setMode .band 2, originFrame true true, originFrame true false, originFrame true false] {} ∧
      Increasing 0 [.message wallMsg 1 true, .setMode .band 2, originFrame true true, originFrame true false, originFrame true false] ∧
      s.map = some (.hashedWavelet m) ∧ m.Sound ∧ s.visible = true ∧ s.selector.mode = .band ∧ s.selector.Observed ∧ s.queue = [] ∧ s.shown.length = 8 := by
  have h : (run [.message wallMsg 1 true, .setMode .band 2, originFrame true true, originFrame true false, originFrame true false] {}).holds (fun s =>
      s.onMap (fun m => m.soundCheck) && s.visible && decide (s.selector.mode = .band) && decide (1 / 1000 ≤ s.selector.bandMin) && decide (s.queue = []) &&
        decide (s.shown.length = 8)) = true := by decide +kernel
  obtain ⟨s, h1, h2⟩ := Outcome.holds_iff h
  simp only [Bool.and_eq_true, decide_eq_true_eq] at h2
  obtain ⟨⟨⟨⟨⟨h2, h3⟩, h4⟩, h5⟩, h6⟩, h7⟩ := h2
  obtain ⟨m, g1, g2⟩ := onMap_spec h2
  refine ⟨s, m, h1, resolutionCheck_spec (by decide +kernel), ?_, g1, HashedWaveletOctree.soundCheck_spec g2, h3, h4, .inr (by rw [h4]; exact h5), h6, h7⟩
  simp only [Increasing, Event.time, originFrame]
  norm_num

example : -- a history as in `C73_redrawn_partial`, in the mode in which surfaces are shown
    ∃ s m, run ([.message wallMsg 1 true] ++ .setVisible true 2 :: [originFrame true true]) {} = .done s ∧
      OneResolution 1 1 ([.message wallMsg 1 true] ++ .setVisible true 2 :: [originFrame true true]) {} ∧
      s.map = some (.hashedWavelet m) ∧ m.Sound ∧ s.visible = true ∧ s.selector.mode = .surface ∧ s.selector.Observed ∧ s.queue = [] ∧ s.shown.length = 4 := by
  have h : (run ([.message wallMsg 1 true] ++ .setVisible true 2 :: [originFrame true true]) {}).holds (fun s =>
      s.onMap (fun m => m.soundCheck) && s.visible && decide (s.selector.mode = .surface) && decide (1 / 1000 ≤ s.selector.surface) && decide (s.queue = []) &&
        decide (s.shown.length = 4)) = true := by decide +kernel
  obtain ⟨s, h1, h2⟩ := Outcome.holds_iff h
  simp only [Bool.and_eq_true, decide_eq_true_eq] at h2
  obtain ⟨⟨⟨⟨⟨h2, h3⟩, h4⟩, h5⟩, h6⟩, h7⟩ := h2
  obtain ⟨m, g1, g2⟩ := onMap_spec h2
  exact ⟨s, m, h1, resolutionCheck_spec (by decide +kernel), g1, HashedWaveletOctree.soundCheck_spec g2, h3, h4, .inr (by rw [h4]; exact h5), h6, h7⟩

example : -- a history as in `C73_shown_again_partial`
    ∃ s1 m, run [.message wallMsg 1 true] {} = .done s1 ∧ OneResolution 1 1 [.message wallMsg 1 true] {} ∧ s1.map = some (.hashedWavelet m) ∧ m.Sound ∧
      s1.termHeight < m.config.treeHeight ∧ s1.selector.Observed := by
  have h : (run [.message wallMsg 1 true] {}).holds (fun s =>
      s.onMap (fun m => m.soundCheck && decide (s.termHeight < m.config.treeHeight)) && decide (s.selector.mode = .surface) &&
        decide (1 / 1000 ≤ s.selector.surface)) = true := by decide +kernel
  obtain ⟨s, h1, h2⟩ := Outcome.holds_iff h
  simp only [Bool.and_eq_true, decide_eq_true_eq] at h2
  obtain ⟨⟨h2, h3⟩, h4⟩ := h2
  obtain ⟨m, g1, g2⟩ := onMap_spec h2
  simp only [Bool.and_eq_true, decide_eq_true_eq] at g2
  exact ⟨s, m, h1, resolutionCheck_spec (by decide +kernel), g1, HashedWaveletOctree.soundCheck_spec g2.1, g2.2, .inr (by rw [h3]; exact h4)⟩

/-- From far away, a block of a map of height 3 is drawn as cubes of 4 cells' width; seen from the origin, the first of them is divided. -/
example : (run [.message ⟨[], [], [⟨1, -2, 4, 3, [fun _ => 0], [⟨fun _ => 0, 1, [⟨fun _ => 0, 1⟩, ⟨fun i => if i = 0 then 1 else 0, 0⟩]⟩]⟩]⟩ 1 true, .setMode .band 2,
      .frame ⟨false, ![-2000, 0, 0]⟩ true id 10] {}).holds (fun s => decide (s.shown.map Cube.width = List.replicate 8 4)) = true ∧
    (run [.message ⟨[], [], [⟨1, -2, 4, 3, [fun _ => 0], [⟨fun _ => 0, 1, [⟨fun _ => 0, 1⟩, ⟨fun i => if i = 0 then 1 else 0, 0⟩]⟩]⟩]⟩ 1 true, .setMode .band 2,
      originFrame false true] {}).holds (fun s => decide (s.shown.map Cube.width = List.replicate 7 4 ++ List.replicate 8 2)) = true := by decide +kernel

/-! ## Histories after which the display does not show the map -/

/-- Of a display that shows the map, every cube is the one of a selected node. -/
theorem VoxelDisplay.Shows.cube {s : VoxelDisplay} {m : HashedWaveletOctree} {lod : Index 3 → Int} (h : s.Shows m lod) {c : Cube} (hc : c ∈ s.shown) :
    ∃ n, s.selector.Selects m.getNodeValue n ∧ c = nodeCube m.config.minCellWidth s.colour n (m.getNodeValue n) := by
  obtain ⟨_, nodes, _, hp⟩ := h
  obtain ⟨n, hn, rfl⟩ := List.mem_map.1 (hp.mem_iff.1 hc)
  exact ⟨n, by simpa using (List.mem_filter.1 hn).2, rfl⟩

theorem shows_of_band {s : VoxelDisplay} {m : HashedWaveletOctree} {lod : Index 3 → Int} (h : s.Shows m lod) (hne : s.shown ≠ []) (hmode : s.selector.mode = .band)
    (hband : 0 < s.selector.bandMin) : ∃ n, 0 < m.getNodeValue n := by
  obtain ⟨c, hc⟩ := List.exists_mem_of_ne_nil _ hne
  obtain ⟨n, hn, _⟩ := h.cube hc
  unfold CellSelector.Selects at hn
  rw [hmode] at hn
  exact ⟨n, lt_of_lt_of_le hband hn.2.1⟩

theorem shows_of_surface {s : VoxelDisplay} {m : HashedWaveletOctree} {lod : Index 3 → Int} (h : s.Shows m lod) (hne : s.shown ≠ []) (hmode : s.selector.mode = .surface)
    (hunk : 0 < s.selector.unknown) (hsurf : s.selector.surface ≤ 1 / 2) : ∃ n, m.getNodeValue n ≠ 0 ∧ m.getNodeValue n < 1 / 2 := by
  obtain ⟨c, hc⟩ := List.exists_mem_of_ne_nil _ hne
  obtain ⟨n, hn, _⟩ := h.cube hc
  unfold CellSelector.Selects at hn
  rw [hmode] at hn
  obtain ⟨_, _, o, _, _, h1, h2⟩ := hn
  refine ⟨_, fun h0 => ?_, lt_of_lt_of_le h2 hsurf⟩
  rw [h0, abs_zero] at h1
  linarith

/-- C73 fails: the user may set the termination height to the tree height. The next frame then aborts if the projection is orthographic, and otherwise calls
`std::clamp` with bounds in the wrong order. -/
theorem C73_termination_height_fails : ∃ es s, run es {} = .done s ∧ run (es ++ [originFrame true true]) {} = .abort ∧
    run (es ++ [originFrame false true]) {} = .undefined := by
  have h : (run [.message wallMsg 1 true, .setMode .band 2, .setTermHeight 1] {}).holds (fun _ => true) = true := by decide +kernel
  obtain ⟨s, h1, _⟩ := Outcome.holds_iff h
  exact ⟨_, s, h1, Outcome.abort_of (by decide +kernel), Outcome.undefined_of (by decide +kernel)⟩

/-- C73 fails: the comparison by which queued blocks are sorted is not an ordering, so that `std::sort` may do anything. Here three blocks were drawn while the
projection was orthographic, the first two change, and the projection becomes a perspective one in which the levels of detail of the three differ by 0, 1 and 2. -/
theorem C73_sort_fails : ∃ es s, run es {} = .done s ∧ run (es ++ [originFrame false true]) {} = .undefined := by
  have h : (run [.message (flatMsg 1 3 [fun _ => 0, ![100, 0, 0], ![200, 0, 0]] [(fun _ => 0, 1), (![100, 0, 0], 1), (![200, 0, 0], 1)]) 1 true, originFrame true true,
      .message (flatMsg 1 3 [fun _ => 0, ![100, 0, 0], ![200, 0, 0]] [(fun _ => 0, 1), (![100, 0, 0], 1)]) 2 true] {}).holds (fun _ => true) = true := by
    decide +kernel
  obtain ⟨s, h1, _⟩ := Outcome.holds_iff h
  exact ⟨_, s, h1, Outcome.undefined_of (by decide +kernel)⟩

/-- C73 fails in the mode in which surfaces are shown: when a block changes, the blocks next to it are not redrawn. Here a free block becomes occupied, and the cells of
its neighbour are still drawn although no free cell is left. -/
theorem C73_neighbour_fails : ∃ es s m, run es {} = .done s ∧ (∀ e ∈ es, e.sorts ∧ e ≠ .reset) ∧ Increasing 0 es ∧ OneResolution 1 1 es {} ∧ lastPlaced es = true ∧
    s.visible = true ∧ s.map = some (.hashedWavelet m) ∧ m.Sound ∧ s.selector.Observed ∧ s.queue = [] ∧ ¬ ∃ lod, s.Shows m lod := by
  have h : (run [.message wallMsg 1 true, originFrame true true, .message (flatMsg 1 1 [fun _ => 0, ![1, 0, 0]] [(![1, 0, 0], 1)]) 2 true, originFrame true false]
      {}).holds (fun s => s.onMap (fun m => m.soundCheck && m.flatCheck fun v => decide (v = 0 ∨ 1 / 2 ≤ v)) && s.visible && decide (s.queue = []) &&
        decide (s.selector.mode = .surface) && decide (0 < s.selector.unknown) && decide (s.selector.surface = 1 / 1000) && decide (s.shown ≠ [])) = true := by
    decide +kernel
  obtain ⟨s, h1, h2⟩ := Outcome.holds_iff h
  simp only [Bool.and_eq_true, decide_eq_true_eq] at h2
  obtain ⟨⟨⟨⟨⟨⟨h2, h3⟩, h4⟩, h5⟩, h6⟩, h7⟩, h8⟩ := h2
  obtain ⟨m, g1, g2⟩ := onMap_spec h2
  rw [Bool.and_eq_true] at g2
  refine ⟨_, s, m, h1, ?_, ?_, resolutionCheck_spec (by decide +kernel), rfl, h3, g1, HashedWaveletOctree.soundCheck_spec g2.1,
    .inr (by rw [h5, h7]), h4, ?_⟩
  · intro e he
    simp only [List.mem_cons, List.not_mem_nil, or_false] at he
    rcases he with rfl | rfl | rfl | rfl
    · exact ⟨trivial, fun h => by cases h⟩
    · exact ⟨frame_sorts _ _, fun h => by cases h⟩
    · exact ⟨trivial, fun h => by cases h⟩
    · exact ⟨frame_sorts _ _, fun h => by cases h⟩
  · simp only [Increasing, Event.time, originFrame]
    norm_num
  · rintro ⟨lod, hl⟩
    obtain ⟨n, a1, a2⟩ := shows_of_surface hl h8 h5 h6 (by rw [h7]; norm_num)
    have := HashedWaveletOctree.flatCheck_spec g2.2 n
    simp only [decide_eq_true_eq] at this
    rcases this with h | h
    · exact a1 h
    · linarith

/-- C73 fails for maps of different resolution: the layers of a block keep the cell width they were made with. Here a map with cells of width 2 replaces one with
cells of width 1, and the new cells are drawn at half their size. -/
theorem C73_resolution_fails : ∃ es s m, run es {} = .done s ∧ s.map = some (.hashedWavelet m) ∧ m.Sound ∧ m.config.minCellWidth = 2 ∧ s.selector.mode = .band ∧
    s.queue = [] ∧ (∃ c ∈ s.shown, c.width = 1) ∧ ¬ ∃ lod, s.Shows m lod := by
  have h : (run [.message wallMsg 1 true, .setMode .band 2, originFrame true true, .message (flatMsg 2 1 [fun _ => 0] [(fun _ => 0, 1)]) 3 true,
      originFrame true true] {}).holds (fun s => s.onMap (fun m => m.soundCheck && decide (m.config.minCellWidth = 2)) && decide (s.selector.mode = .band) &&
        decide (s.queue = []) && decide (∃ c ∈ s.shown, c.width = 1)) = true := by decide +kernel
  obtain ⟨s, h1, h2⟩ := Outcome.holds_iff h
  simp only [Bool.and_eq_true, decide_eq_true_eq] at h2
  obtain ⟨⟨⟨h2, h3⟩, h4⟩, h5⟩ := h2
  obtain ⟨m, g1, g2⟩ := onMap_spec h2
  simp only [Bool.and_eq_true, decide_eq_true_eq] at g2
  refine ⟨_, s, m, h1, g1, HashedWaveletOctree.soundCheck_spec g2.1, g2.2, h3, h4, h5, ?_⟩
  rintro ⟨lod, hl⟩
  obtain ⟨c, hc, hw⟩ := h5
  obtain ⟨n, _, rfl⟩ := hl.cube hc
  have hw : (2 : ℚ) ^ n.height.toNat * m.config.minCellWidth = 1 := hw
  rw [g2.2] at hw
  have : (1 : ℚ) ≤ 2 ^ n.height.toNat := one_le_pow₀ (by norm_num)
  linarith

/-- C73 fails after a reset: the voxels are removed and not queued again. -/
theorem C73_reset_fails : ∃ es s m, run es {} = .done s ∧ s.map = some (.hashedWavelet m) ∧ m.Sound ∧ s.visible = true ∧ s.selector.mode = .band ∧
    s.queue = [] ∧ s.shown = [] ∧ ¬ ∃ lod, s.Shows m lod := by
  have h : (run [.message wallMsg 1 true, .setMode .band 2, originFrame true true, .reset, originFrame true true] {}).holds (fun s =>
      s.onMap (fun m => m.soundCheck && decide (m.config.treeHeight = 1) && decide (m.getNodeValue ⟨0, fun _ => 0⟩ = 1) && (m.blocks.getBlock fun _ => 0).isSome) &&
        s.visible && decide (s.selector = { mode := .band, accelerator := some 1 }) && decide (s.queue = []) && decide (s.shown = [])) = true := by decide +kernel
  obtain ⟨s, h1, h2⟩ := Outcome.holds_iff h
  simp only [Bool.and_eq_true, decide_eq_true_eq] at h2
  obtain ⟨⟨⟨⟨h2, h3⟩, h4⟩, h5⟩, h6⟩ := h2
  obtain ⟨m, g1, g2⟩ := onMap_spec h2
  simp only [Bool.and_eq_true, decide_eq_true_eq] at g2
  obtain ⟨⟨⟨g2, g3⟩, g4⟩, g5⟩ := g2
  refine ⟨_, s, m, h1, g1, HashedWaveletOctree.soundCheck_spec g2, h3, by rw [h4], h5, h6, ?_⟩
  rintro ⟨lod, hl0, nodes, hcov, hp⟩
  obtain ⟨n, hn, c1, c2, _⟩ := hcov.inside (fun _ => 0) (fun _ => 0) g5 (by rw [inBlock_iff, g3]; decide)
  have hmem : n ∈ nodes.filter fun n => decide (NodeRegion n fun _ => 0) := by rw [hn]; exact List.mem_singleton_self n
  obtain ⟨hmem, hreg⟩ := List.mem_filter.1 hmem
  have hreg : NodeRegion n fun _ => 0 := by simpa using hreg
  have h0 := hl0 _ g5
  rw [g3] at c2
  have hh : n.height = 0 := by omega
  have hnn : n = ⟨0, fun _ => 0⟩ := by
    obtain ⟨ht, pos⟩ := n
    dsimp only at hh
    subst hh
    congr 1
    funext i
    have := hreg i
    simp only [Int.toNat_zero, pow_zero, mul_one] at this
    omega
  rw [h6] at hp
  have hnil := hp.symm.eq_nil
  rw [List.map_eq_nil_iff, List.filter_eq_nil_iff] at hnil
  have := hnil n hmem
  simp only [decide_eq_true_eq] at this
  apply this
  rw [h4, hnn]
  unfold CellSelector.Selects
  rw [g4]
  norm_num

/-- C73 fails if two messages are applied at the same time by the clock: the blocks of the second one are not redrawn. -/
theorem C73_stamp_tie_fails : ∃ es s m, run es {} = .done s ∧ OneResolution 1 1 es {} ∧ s.map = some (.hashedWavelet m) ∧ m.Sound ∧ s.visible = true ∧
    s.selector.mode = .band ∧ s.queue = [] ∧ s.shown ≠ [] ∧ ¬ ∃ lod, s.Shows m lod := by
  have h : (run [.setMode .band 1, .message wallMsg 2 true, originFrame true true, .message (flatMsg 1 1 [fun _ => 0, ![1, 0, 0]] [(fun _ => 0, -1)]) 2 true,
      originFrame true true] {}).holds (fun s => s.onMap (fun m => m.soundCheck && m.flatCheck fun v => decide (v ≤ 0)) && s.visible &&
        decide (s.selector.mode = .band) && decide (0 < s.selector.bandMin) && decide (s.queue = []) && decide (s.shown ≠ [])) = true := by decide +kernel
  obtain ⟨s, h1, h2⟩ := Outcome.holds_iff h
  simp only [Bool.and_eq_true, decide_eq_true_eq] at h2
  obtain ⟨⟨⟨⟨⟨h2, h3⟩, h4⟩, h5⟩, h6⟩, h7⟩ := h2
  obtain ⟨m, g1, g2⟩ := onMap_spec h2
  rw [Bool.and_eq_true] at g2
  refine ⟨_, s, m, h1, resolutionCheck_spec (by decide +kernel), g1, HashedWaveletOctree.soundCheck_spec g2.1, h3, h4, h6, h7, ?_⟩
  rintro ⟨lod, hl⟩
  obtain ⟨n, hn⟩ := shows_of_band hl h7 h4 h5
  have := HashedWaveletOctree.flatCheck_spec g2.2 n
  simp only [decide_eq_true_eq] at this
  linarith

/-- C73 fails when the map is replaced by one of another type: the voxels of the old one stay. Here the new map has no cells at all. -/
theorem C73_other_type_fails : ∃ es s m, run es {} = .done s ∧ s.map = some (.hashedBlocks m) ∧ m.hash.blockMap = [] ∧ s.visible = true ∧ s.shown ≠ [] := by
  have h : (run [.message (flatMsg 1 1 [![1, 0, 0]] [(![1, 0, 0], 1)]) 1 true, .setMode .band 2, originFrame true true,
      .message ⟨[⟨1, -2, 4, [], []⟩], [], []⟩ 3 true] {}).holds (fun s =>
      (match s.map with | some (.hashedBlocks m) => m.hash.blockMap.isEmpty | _ => false) && s.visible && decide (s.shown ≠ [])) = true := by decide +kernel
  obtain ⟨s, h1, h2⟩ := Outcome.holds_iff h
  simp only [Bool.and_eq_true, decide_eq_true_eq] at h2
  obtain ⟨⟨h2, h3⟩, h4⟩ := h2
  split at h2
  · next m e => exact ⟨_, s, m, h1, e, List.isEmpty_iff.1 h2, h3, h4⟩
  · cases h2

/-- C73 fails if a message replaces the map while its frame is unknown: the queue of the old map is drawn with an accelerator that refers to a map that no longer
exists. -/
theorem C73_unknown_frame_fails : ∃ es s, run es {} = .done s ∧ run (es ++ [originFrame true true]) {} = .undefined := by
  have h : (run [.message wallMsg 1 true, .message (flatMsg 2 1 [fun _ => 0] [(fun _ => 0, 1)]) 2 false] {}).holds (fun _ => true) = true := by decide +kernel
  obtain ⟨s, h1, _⟩ := Outcome.holds_iff h
  exact ⟨_, s, h1, Outcome.undefined_of (by decide +kernel)⟩

/-- C73 fails if a message is invalid: there is no map any more, and the voxels of the old one stay. -/
theorem C73_invalid_message_fails : ∃ es s, run es {} = .done s ∧ s.map.isNone = true ∧ s.visible = true ∧ s.queue = [] ∧ s.shown ≠ [] := by
  have h : (run [.message wallMsg 1 true, .setMode .band 2, originFrame true true, .message ⟨[], [], []⟩ 3 true, originFrame true true] {}).holds (fun s =>
      s.map.isNone && s.visible && decide (s.queue = []) && decide (s.shown ≠ [])) = true := by decide +kernel
  obtain ⟨s, h1, h2⟩ := Outcome.holds_iff h
  simp only [Bool.and_eq_true, decide_eq_true_eq] at h2
  obtain ⟨⟨⟨h2, h3⟩, h4⟩, h5⟩ := h2
  exact ⟨_, s, h1, h2, h3, h4, h5⟩

end Wavemap
