import Verif.Props.SliceDisplayRuns
import Verif.Props.VoxelDisplayExamples
/-!
# C74 The slice display: examples, and histories after which it does not show the map
-/
namespace Wavemap
open NdtreeIndex NTree Haar SliceDisplay

/-! ## Checks that the kernel can evaluate -/

/-- A check of the map, if it is a hashed wavelet octree. -/
def SliceDisplay.onMap (p : HashedWaveletOctree → Bool) (s : SliceDisplay) : Bool :=
  match s.map with
  | some (.hashedWavelet m) => p m
  | _ => false

theorem SliceDisplay.onMap_spec {p : HashedWaveletOctree → Bool} {s : SliceDisplay} (h : s.onMap p = true) :
    ∃ m, s.map = some (.hashedWavelet m) ∧ p m = true := by
  unfold SliceDisplay.onMap at h
  split at h
  · next m e => exact ⟨m, e, h⟩
  · cases h

/-- The map stores the cell, as a function. -/
def HashedWaveletOctree.storedCheck (m : HashedWaveletOctree) (j : Index 3) : Bool :=
  match m.blocks.getBlock (indexToBlockIndex m.config.treeHeight j) with
  | some b => !b.empty
  | none => false

theorem HashedWaveletOctree.storedCheck_iff {m : HashedWaveletOctree} {j : Index 3} : m.storedCheck j = true ↔ (AnyMap.hashedWavelet m).Stored j := by
  unfold storedCheck AnyMap.Stored
  constructor
  · intro h
    split at h
    · next b e => exact ⟨_, b, (inBlock_iff _ _).2 rfl, e, by simpa using h⟩
    · cases h
  · rintro ⟨k, b, h1, h2, h3⟩
    rw [inBlock_iff] at h1
    subst h1
    rw [h2]
    simp [h3]

/-- The squares that cover a point. -/
def SliceDisplay.over (s : SliceDisplay) (x y : ℚ) : List Square := s.squares.filter fun q => decide (q.Covers x y)

/-! ## Examples -/

/-- A map with a wall: one block is occupied and the block next to it is free. -/
def wallMap : HashedWaveletOctree :=
  ⟨⟨1, -2, 4, 2, 5⟩, [(fun _ => 0, { WaveletBlock.create 2 (-2) 4 0 with rootScale := 1 }), (![1, 0, 0], { WaveletBlock.create 2 (-2) 4 0 with rootScale := -1 })]⟩

theorem wallMap_sound : wallMap.Sound := HashedWaveletOctree.soundCheck_spec (by decide +kernel)

example : -- a history as in `C74_served_partial`: the occupied block is shown by four squares in a plane through it, and the free one is not
    ∃ es s m, (∀ e ∈ es, Served 1 2 e) ∧ run es {} = .done s ∧ s.map = some (.hashedWavelet m) ∧ s.visible = true ∧ s.squares.length = 4 ∧
      (AnyMap.hashedWavelet m).Stored ![1, 1, 0] ∧ s.over (3 / 2) (3 / 2) = [⟨1, 1, 1 / 2, 2, 1 / 4, .ofLogOdds 1⟩] ∧
      (AnyMap.hashedWavelet m).Stored ![4, 0, 0] ∧ s.over (9 / 2) (1 / 2) = [] := by
  have h : (match wallMap.toMsg [fun _ => 0, ![1, 0, 0]] with
      | some msg => (run [.setVisible true, .message ⟨[], [], [msg]⟩ 1 true, .setHeight (1 / 2), .setAlpha (1 / 4), .setMinLogOdds 0] {}).holds fun s =>
        s.onMap (fun m => m.storedCheck ![1, 1, 0] && m.storedCheck ![4, 0, 0]) && s.visible && decide (s.squares.length = 4) &&
          decide (s.over (3 / 2) (3 / 2) = [⟨1, 1, 1 / 2, 2, 1 / 4, .ofLogOdds 1⟩]) && decide (s.over (9 / 2) (1 / 2) = [])
      | none => false) = true := by decide +kernel
  split at h
  · next msg hmsg =>
    obtain ⟨s, h1, h2⟩ := Outcome.holds_iff h
    simp only [Bool.and_eq_true, decide_eq_true_eq] at h2
    obtain ⟨⟨⟨⟨h2, h3⟩, h4⟩, h5⟩, h6⟩ := h2
    obtain ⟨m, g1, g2⟩ := onMap_spec h2
    rw [Bool.and_eq_true] at g2
    refine ⟨_, s, m, ?_, h1, g1, h3, h4, HashedWaveletOctree.storedCheck_iff.1 g2.1, h5, HashedWaveletOctree.storedCheck_iff.1 g2.2, h6⟩
    simp only [List.forall_mem_cons, List.not_mem_nil, false_imp_iff, implies_true, and_true]
    exact ⟨.setVisible _, .wavelet wallMap wallMap_sound rfl rfl _ (by decide +kernel) msg hmsg 1, .setHeight _, .setAlpha _, .setMinLogOdds _⟩
  · cases h

example : -- a history as in `C74_served_partial`, of a server with hashed blocks
    ∀ e ∈ ([.message ⟨[(HashedBlocks.addToCellValue (.create ⟨1, -2, 4⟩ 0) (fun _ => 0) 2).toMsg], [], []⟩ 1 true, .setVisible true, .setColour .raw] :
      List SliceDisplay.Event), Served 1 0 e := by
  simp only [List.forall_mem_cons, List.not_mem_nil, false_imp_iff, implies_true, and_true]
  exact ⟨.blocks (HashedBlocks.addToCellValue (.create ⟨1, -2, 4⟩ 0) (fun _ => 0) 2) ⟨by decide +kernel, by decide +kernel⟩ rfl rfl 1, .setVisible _, .setColour _⟩

/-! ## Histories after which the display does not show the map -/

/-- C74 fails for maps of different heights: layers above the height of the map are left as they are. Here a map of height 3 is replaced by an empty one of height 1, and
the squares of the old one remain. -/
theorem C74_height_fails : ∃ es s m, run es {} = .done s ∧ (∀ e ∈ es, e.Ordinary) ∧ s.map = some (.hashedWavelet m) ∧ m.Sound ∧ s.visible = true ∧
    m.config.minCellWidth = 1 ∧ s.squares ≠ [] ∧ (∀ j, ¬ (AnyMap.hashedWavelet m).Stored j) ∧ ¬ s.Shows (.hashedWavelet m) := by
  have h : (run [.setVisible true, .message (flatMsg 1 3 [fun _ => 0] [(fun _ => 0, 1)]) 1 true, .message (flatMsg 1 1 [] []) 2 true] {}).holds (fun s =>
      s.onMap (fun m => m.soundCheck && decide (m.config.minCellWidth = 1) && m.blocks.isEmpty) && s.visible && decide (s.height = 0) && decide (s.squares ≠ []) && decide (s.over 0 0 ≠ [])) = true := by
    decide +kernel
  obtain ⟨s, h1, h2⟩ := Outcome.holds_iff h
  simp only [Bool.and_eq_true, decide_eq_true_eq] at h2
  obtain ⟨⟨⟨⟨h2, h3⟩, h0⟩, h4⟩, h5⟩ := h2
  obtain ⟨m, g1, g2⟩ := onMap_spec h2
  simp only [Bool.and_eq_true, decide_eq_true_eq, List.isEmpty_iff] at g2
  have hst : ∀ j, ¬ (AnyMap.hashedWavelet m).Stored j := by
    rintro j ⟨k, b, _, hb, _⟩
    rw [g2.2] at hb; cases hb
  refine ⟨_, s, m, h1, ?_, g1, HashedWaveletOctree.soundCheck_spec g2.1.1, h3, g2.1.2, h4, hst, fun hs => ?_⟩
  · simp only [List.forall_mem_cons, List.not_mem_nil, false_imp_iff, implies_true, and_true]
    exact ⟨trivial, rfl, rfl⟩
  · refine h5 (hs.nothing 0 0 (fun _ => 0) ?_ fun hc => hst _ hc.1)
    have : (AnyMap.hashedWavelet m).minCellWidth = 1 := g2.1.2
    rw [this, h0]
    unfold CellHolds
    norm_num

/-- C74 fails for maps of different resolution: layers keep the cell width they were made with. Here a map with cells of width 1 is replaced by one with cells of
width 2, whose squares are too small to cover its cells. -/
theorem C74_resolution_fails : ∃ es s m, run es {} = .done s ∧ (∀ e ∈ es, e.Ordinary) ∧ s.map = some (.hashedWavelet m) ∧ m.Sound ∧ s.visible = true ∧
    m.config.minCellWidth = 2 ∧ (∃ q ∈ s.squares, q.width = 1) ∧ ¬ s.Shows (.hashedWavelet m) := by
  have h : (run [.setVisible true, .message (flatMsg 1 1 [fun _ => 0] [(fun _ => 0, 1)]) 1 true, .message (flatMsg 2 1 [fun _ => 0] [(fun _ => 0, 1)]) 2 true] {}).holds
      (fun s => s.onMap (fun m => m.soundCheck && decide (m.config.minCellWidth = 2) && m.storedCheck (fun _ => 0) && decide (m.getCellValue (fun _ => 0) = 1)) && s.visible &&
        decide (s.height = 0 ∧ s.minLogOdds ≤ 1 ∧ 1 ≤ s.maxLogOdds) && decide (∃ q ∈ s.squares, q.width = 1) && decide (s.over 0 0 = [])) = true := by
    decide +kernel
  obtain ⟨s, h1, h2⟩ := Outcome.holds_iff h
  simp only [Bool.and_eq_true, decide_eq_true_eq] at h2
  obtain ⟨⟨⟨⟨h2, h3⟩, h0, h0', h0''⟩, h4⟩, h5⟩ := h2
  obtain ⟨m, g1, g2⟩ := onMap_spec h2
  simp only [Bool.and_eq_true, decide_eq_true_eq] at g2
  obtain ⟨⟨⟨g2, g3⟩, g4⟩, g5⟩ := g2
  refine ⟨_, s, m, h1, ?_, g1, HashedWaveletOctree.soundCheck_spec g2, h3, g3, h4, fun hs => ?_⟩
  · simp only [List.forall_mem_cons, List.not_mem_nil, false_imp_iff, implies_true, and_true]
    exact ⟨trivial, rfl, rfl⟩
  · have hc : (AnyMap.hashedWavelet m).cell (fun _ => 0) = 1 := g5
    obtain ⟨q, hq, _⟩ := hs.square 0 0 (fun _ => 0) (by
      have : (AnyMap.hashedWavelet m).minCellWidth = 2 := g3
      rw [this, h0]
      unfold CellHolds
      norm_num) (HashedWaveletOctree.storedCheck_iff.1 g4) (by rw [hc]; exact h0') (by rw [hc]; exact h0'')
    have h5 : s.squares.filter _ = [] := h5
    rw [h5] at hq; cases hq

/-- C74 fails after a reset: the squares are removed and not drawn again. -/
theorem C74_reset_fails : ∃ es s m, run es {} = .done s ∧ s.map = some (.hashedWavelet m) ∧ m.Sound ∧ s.visible = true ∧ s.squares = [] ∧
    ¬ s.Shows (.hashedWavelet m) := by
  have h : (run [.setVisible true, .message (flatMsg 1 1 [fun _ => 0] [(fun _ => 0, 1)]) 1 true, .reset] {}).holds
      (fun s => s.onMap (fun m => m.soundCheck && decide (m.config.minCellWidth = 1) && m.storedCheck (fun _ => 0) && decide (m.getCellValue (fun _ => 0) = 1)) && s.visible &&
        decide (s.height = 0 ∧ s.minLogOdds ≤ 1 ∧ 1 ≤ s.maxLogOdds) && decide (s.squares = [])) = true := by
    decide +kernel
  obtain ⟨s, h1, h2⟩ := Outcome.holds_iff h
  simp only [Bool.and_eq_true, decide_eq_true_eq] at h2
  obtain ⟨⟨⟨h2, h3⟩, h0, h0', h0''⟩, h5⟩ := h2
  obtain ⟨m, g1, g2⟩ := onMap_spec h2
  simp only [Bool.and_eq_true, decide_eq_true_eq] at g2
  obtain ⟨⟨⟨g2, g3⟩, g4⟩, g5⟩ := g2
  refine ⟨_, s, m, h1, g1, HashedWaveletOctree.soundCheck_spec g2, h3, h5, fun hs => ?_⟩
  have hc : (AnyMap.hashedWavelet m).cell (fun _ => 0) = 1 := g5
  obtain ⟨q, hq, _⟩ := hs.square 0 0 (fun _ => 0) (by
    have : (AnyMap.hashedWavelet m).minCellWidth = 1 := g3
    rw [this, h0]
    unfold CellHolds
    norm_num) (HashedWaveletOctree.storedCheck_iff.1 g4) (by rw [hc]; exact h0') (by rw [hc]; exact h0'')
  rw [h5] at hq; cases hq

/-- C74 fails for messages in a frame to which no transform is known: the map changes and the squares do not. Here the message says that nothing is stored any more. -/
theorem C74_frame_fails : ∃ es s m, run es {} = .done s ∧ s.map = some (.hashedWavelet m) ∧ m.Sound ∧ s.visible = true ∧ s.squares ≠ [] ∧
    (∀ j, ¬ (AnyMap.hashedWavelet m).Stored j) ∧ ¬ s.Shows (.hashedWavelet m) := by
  have h : (run [.setVisible true, .message (flatMsg 1 1 [fun _ => 0] [(fun _ => 0, 1)]) 1 true, .message (flatMsg 1 1 [] []) 2 false] {}).holds (fun s =>
      s.onMap (fun m => m.soundCheck && decide (m.config.minCellWidth = 1) && m.blocks.isEmpty) && s.visible && decide (s.height = 0) && decide (s.squares ≠ []) && decide (s.over 0 0 ≠ [])) = true := by
    decide +kernel
  obtain ⟨s, h1, h2⟩ := Outcome.holds_iff h
  simp only [Bool.and_eq_true, decide_eq_true_eq] at h2
  obtain ⟨⟨⟨⟨h2, h3⟩, h0⟩, h4⟩, h5⟩ := h2
  obtain ⟨m, g1, g2⟩ := onMap_spec h2
  simp only [Bool.and_eq_true, decide_eq_true_eq, List.isEmpty_iff] at g2
  have hst : ∀ j, ¬ (AnyMap.hashedWavelet m).Stored j := by
    rintro j ⟨k, b, _, hb, _⟩
    rw [g2.2] at hb; cases hb
  refine ⟨_, s, m, h1, g1, HashedWaveletOctree.soundCheck_spec g2.1.1, h3, h4, hst, fun hs => ?_⟩
  refine h5 (hs.nothing 0 0 (fun _ => 0) ?_ fun hc => hst _ hc.1)
  have : (AnyMap.hashedWavelet m).minCellWidth = 1 := g2.1.2
  rw [this, h0]
  unfold CellHolds
  norm_num

/-- C74 fails for rejected messages: after a message without a map the display has no map, and still draws the squares of the old one, whatever the user changes (other
than switching it off). -/
theorem C74_rejected_fails : ∃ es s, run es {} = .done s ∧ s.map = none ∧ s.visible = true ∧ s.squares ≠ [] := by
  have h : (run [.setVisible true, .message (flatMsg 1 1 [fun _ => 0] [(fun _ => 0, 1)]) 1 true, .message ⟨[], [], []⟩ 2 true, .setHeight 10, .setMinLogOdds 2] {}).holds
      (fun s => s.map.isNone && s.visible && decide (s.squares ≠ [])) = true := by decide +kernel
  obtain ⟨s, h1, h2⟩ := Outcome.holds_iff h
  simp only [Bool.and_eq_true, decide_eq_true_eq, Option.isNone_iff_eq_none] at h2
  exact ⟨_, s, h1, h2.1.1, h2.1.2, h2.2⟩

/-- C74 fails for malformed messages of a wavelet octree: nodes below the height of the tree are accepted, their leaves have negative heights, and drawing them reads outside of an array. -/
theorem C74_deep_fails : ∃ es s, run es {} = .done s ∧ run (es ++ [.setVisible true]) {} = .undefined := by
  have h : (run [.message ⟨[], [⟨1, -2, 4, 1, 1, [⟨fun _ => 0, 1⟩, ⟨fun _ => 1, 0⟩]⟩], []⟩ 1 true] {}).holds (fun _ => true) = true := by
    decide +kernel
  obtain ⟨s, h1, _⟩ := Outcome.holds_iff h
  exact ⟨_, s, h1, Outcome.undefined_of (by decide +kernel)⟩

end Wavemap
